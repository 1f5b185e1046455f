/-
C49, C76: calibration files and comparison of calibrations (calibration.py).
-/
import Verif.Model.CalibIO
import Verif.Model.Trafo
import Verif.Proofs.Text
import Mathlib.Analysis.SpecialFunctions.Trigonometric.Bounds

namespace Verif.IO
open Text Spec

/-- Three numbers, each rounded to `k` decimals. -/
structure Rounded3 (k : ℕ) (r s : Row3) : Prop where
  a : Rounded k r.a s.a
  b : Rounded k r.b s.b
  c : Rounded k r.c s.c

/-- `d` is `c` at the precision of the files, with the rotation matrix of its angles. -/
structure SameCal (rot : Row3 → Mat3) (c d : Cal) : Prop where
  pos : Rounded3 8 c.pos d.pos
  angles : Rounded3 8 c.angles d.angles
  prim : Rounded3 4 c.prim d.prim
  glass : List.Forall₂ (Rounded 15) c.glass d.glass
  added : List.Forall₂ (Rounded 8) c.added d.added
  dm : d.dm = rot d.angles

theorem words_row3 (k : ℕ) (r : Row3) (s : List Char) :
    words (row3Text k r ++ s) = fixedStr k r.a :: fixedStr k r.b :: fixedStr k r.c :: words s := by
  simp only [row3Text, joinSp, List.append_assoc, List.cons_append, List.nil_append]
  rw [words_cons (fixedStr_word _ _) (by decide), words_cons (fixedStr_word _ _) (by decide),
    words_cons (fixedStr_word _ _) (by decide)]

theorem words_nl (s : List Char) : words ('\n' :: s) = words s := words_space (by decide) s

theorem words_ori (c : Cal) (s : List Char) : words (oriText c ++ s) =
    [fixedStr 8 c.pos.a, fixedStr 8 c.pos.b, fixedStr 8 c.pos.c, fixedStr 8 c.angles.a, fixedStr 8 c.angles.b,
      fixedStr 8 c.angles.c, fixedStr 7 c.dm.r0.a, fixedStr 7 c.dm.r0.b, fixedStr 7 c.dm.r0.c,
      fixedStr 7 c.dm.r1.a, fixedStr 7 c.dm.r1.b, fixedStr 7 c.dm.r1.c, fixedStr 7 c.dm.r2.a, fixedStr 7 c.dm.r2.b,
      fixedStr 7 c.dm.r2.c, fixedStr 4 c.prim.a, fixedStr 4 c.prim.b, fixedStr 4 c.prim.c] ++ words s := by
  simp only [oriText, joinSp, List.append_assoc, List.cons_append, List.nil_append]
  rw [words_row3, words_row3, words_nl, words_row3, words_row3, words_row3, words_nl]
  rw [words_cons (fixedStr_word _ _) (by decide), words_cons (fixedStr_word _ _) (by decide),
    words_cons (fixedStr_word _ _) (by decide)]

/-- The numbers of the orientation file. -/
theorem fromString_ori (c : Cal) (g0 g1 g2 : ℚ) :
    fromString (oriText c ++ '\n' :: row3Text 15 ⟨g0, g1, g2⟩) =
      .ok [rnd 8 c.pos.a, rnd 8 c.pos.b, rnd 8 c.pos.c, rnd 8 c.angles.a, rnd 8 c.angles.b,
      rnd 8 c.angles.c, rnd 7 c.dm.r0.a, rnd 7 c.dm.r0.b, rnd 7 c.dm.r0.c,
      rnd 7 c.dm.r1.a, rnd 7 c.dm.r1.b, rnd 7 c.dm.r1.c, rnd 7 c.dm.r2.a, rnd 7 c.dm.r2.b,
      rnd 7 c.dm.r2.c, rnd 4 c.prim.a, rnd 4 c.prim.b, rnd 4 c.prim.c, rnd 15 g0, rnd 15 g1, rnd 15 g2] := by
  have h := words_row3 15 ⟨g0, g1, g2⟩ []
  rw [List.append_nil, words_nil] at h
  rw [fromString, words_ori, words_nl, h]
  simp only [List.cons_append, List.nil_append, List.mapM_cons, List.mapM_nil,
    parseFloat_fixedStr (show 0 < 8 by norm_num), parseFloat_fixedStr (show 0 < 7 by norm_num),
    parseFloat_fixedStr (show 0 < 4 by norm_num), parseFloat_fixedStr (show 0 < 15 by norm_num)]
  rfl

/-- The numbers of the file of added parameters. -/
theorem readAdded_text (xs : List ℚ) (h : xs.length = 7) :
    readAdded (joinSp (xs.map (fixedStr 8)) ++ ['\n']) = .ok (xs.map (rnd 8)) := by
  have hf : List.Forall₂ IsField (xs.map (fixedStr 8)) (xs.map (fixedStr 8)) := by
    rw [List.forall₂_same]
    intro w hw
    obtain ⟨x, -, rfl⟩ := List.mem_map.mp hw
    exact (fixedStr_word 8 x).field
  rw [readAdded, readline_line (joinSp_no_nl hf)]
  simp only
  rw [words_joinSp hf]
  match xs, h with
  | [a, b, c, d, e, f, g], _ =>
    simp only [List.map_cons, List.map_nil, List.mapM_cons, List.mapM_nil,
      parseFloat_fixedStr (show 0 < 8 by norm_num)]
    rfl

theorem addedText_eq (c : Cal) (h : c.added.length = 7) :
    addedText c = .ok (joinSp (c.added.map (fixedStr 8)) ++ ['\n']) := by
  rw [addedText]
  match hc : c.added, h with
  | [a0, a1, a2, a3, a4, a5, a6], _ => rfl

theorem glassText_eq (c : Cal) (g0 g1 g2 : ℚ) (h : c.glass = [g0, g1, g2]) :
    glassText c = .ok ('\n' :: row3Text 15 ⟨g0, g1, g2⟩) := by
  rw [glassText, h]; rfl

/-- The calibration that is read back. -/
def Cal.rounded (rot : Row3 → Mat3) (c : Cal) : Cal where
  pos := ⟨rnd 8 c.pos.a, rnd 8 c.pos.b, rnd 8 c.pos.c⟩
  angles := ⟨rnd 8 c.angles.a, rnd 8 c.angles.b, rnd 8 c.angles.c⟩
  dm := rot ⟨rnd 8 c.angles.a, rnd 8 c.angles.b, rnd 8 c.angles.c⟩
  prim := ⟨rnd 4 c.prim.a, rnd 4 c.prim.b, rnd 4 c.prim.c⟩
  glass := c.glass.map (rnd 15)
  added := c.added.map (rnd 8)

theorem sameCal_rounded (rot : Row3 → Mat3) (c : Cal) : SameCal rot c (c.rounded rot) where
  pos := ⟨rnd_rounded _ _, rnd_rounded _ _, rnd_rounded _ _⟩
  angles := ⟨rnd_rounded _ _, rnd_rounded _ _, rnd_rounded _ _⟩
  prim := ⟨rnd_rounded _ _, rnd_rounded _ _, rnd_rounded _ _⟩
  glass := by
    rw [Cal.rounded, List.forall₂_map_right_iff, List.forall₂_same]
    exact fun x _ => rnd_rounded _ _
  added := by
    rw [Cal.rounded, List.forall₂_map_right_iff, List.forall₂_same]
    exact fun x _ => rnd_rounded _ _
  dm := rfl

theorem fromFile_text (rot : Row3 → Mat3) (fs : FS) (c : Cal) (ori : List Char) (add : Option (List Char))
    (g0 g1 g2 : ℚ) (added : List ℚ)
    (ho : fs ori = some (oriText c ++ '\n' :: row3Text 15 ⟨g0, g1, g2⟩)) (ha : readAddedFile fs add = .ok added) :
    fromFile rot fs ori add = .ok { c.rounded rot with glass := [rnd 15 g0, rnd 15 g1, rnd 15 g2], added := added } := by
  rw [fromFile, FS.read, ho]
  simp only [bind, Except.bind, fromString_ori, ha]
  rfl

/-- C49: for every calibration with a glass vector of three and seven added parameters, and every function that
gives the rotation matrix: writing the two files succeeds and reading them gives the same parameters, rounded to
the written number of decimals, with the rotation matrix of the rounded angles. -/
theorem C49_roundtrip (rot : Row3 → Mat3) (fs : FS) (c : Cal) (ori add : List Char) (hne : ori ≠ add)
    (hg : c.glass.length = 3) (ha : c.added.length = 7) :
    (writeOri fs c ori (some add)).2 = .ok true ∧
      ∃ d, fromFile rot (writeOri fs c ori (some add)).1 ori (some add) = .ok d ∧ SameCal rot c d := by
  obtain ⟨g0, g1, g2, hg'⟩ : ∃ g0 g1 g2, c.glass = [g0, g1, g2] := by
    match hc : c.glass, hg with
    | [a, b, d], _ => exact ⟨a, b, d, rfl⟩
  have hw : writeOri fs c ori (some add) =
      ((fs.write ori (oriText c ++ '\n' :: row3Text 15 ⟨g0, g1, g2⟩)).write add
        (joinSp (c.added.map (fixedStr 8)) ++ ['\n']), .ok true) := by
    rw [writeOri, glassText_eq c g0 g1 g2 hg']
    simp only [writeAdded, addedText_eq c ha]
  rw [hw]
  refine ⟨rfl, c.rounded rot, ?_, sameCal_rounded rot c⟩
  simp only
  rw [fromFile_text rot _ c ori (some add) g0 g1 g2 (c.added.map (rnd 8))]
  · simp only [Cal.rounded, hg', List.map_cons, List.map_nil]
  · simp [FS.write, hne]
  · simp only [readAddedFile, FS.read, FS.write, if_true, bind, Except.bind]
    exact readAdded_text c.added ha

/-- C49: the calibration read back is read back identically after a second writing, to any files. -/
theorem C49_stable (rot : Row3 → Mat3) (fs fs' : FS) (c d : Cal) (ori add ori' add' : List Char) (hne : ori ≠ add)
    (hne' : ori' ≠ add') (hg : c.glass.length = 3) (ha : c.added.length = 7)
    (h : fromFile rot (writeOri fs c ori (some add)).1 ori (some add) = .ok d) :
    fromFile rot (writeOri fs' d ori' (some add')).1 ori' (some add') = .ok d := by
  have key : ∀ (fs : FS) (c d : Cal) (ori add : List Char), ori ≠ add → c.glass.length = 3 → c.added.length = 7 →
      fromFile rot (writeOri fs c ori (some add)).1 ori (some add) = .ok d → d = c.rounded rot := by
    intro fs c d ori add hne hg ha h
    obtain ⟨-, e, h1, h2⟩ := C49_roundtrip rot fs c ori add hne hg ha
    rw [h] at h1
    obtain rfl := Except.ok.inj h1
    obtain ⟨⟨p1, p2, p3⟩, ⟨a1, a2, a3⟩, ⟨q1, q2, q3⟩, g, ad, hd⟩ := h2
    have hl : ∀ (k : ℕ) (xs ys : List ℚ), List.Forall₂ (Rounded k) xs ys → ys = xs.map (rnd k) := by
      intro k xs ys hxy
      induction hxy with
      | nil => rfl
      | cons h _ ih => rw [rounded_eq_rnd h, ih, List.map_cons]
    obtain ⟨⟨x, y, z⟩, ⟨o, p, k⟩, dm, ⟨xh, yh, cc⟩, gl, add'⟩ := d
    simp only at *
    rw [Cal.rounded, hd, rounded_eq_rnd p1, rounded_eq_rnd p2, rounded_eq_rnd p3, rounded_eq_rnd a1,
      rounded_eq_rnd a2, rounded_eq_rnd a3, rounded_eq_rnd q1, rounded_eq_rnd q2, rounded_eq_rnd q3, hl _ _ _ g,
      hl _ _ _ ad]
  have e1 := key fs c d ori add hne hg ha h
  have hg' : d.glass.length = 3 := by rw [e1]; simpa [Cal.rounded] using hg
  have ha' : d.added.length = 7 := by rw [e1]; simpa [Cal.rounded] using ha
  obtain ⟨-, e, h1, h2⟩ := C49_roundtrip rot fs' d ori' add' hne' hg' ha'
  rw [h1, key fs' d e ori' add' hne' hg' ha' h1, e1]
  simp [Cal.rounded, rnd_rnd, Function.comp_def]

/-- C49: without a file of added parameters, the reader uses no distortion. -/
theorem C49_no_added (rot : Row3 → Mat3) (fs : FS) (c : Cal) (ori : List Char) (hg : c.glass.length = 3) :
    ∃ d, fromFile rot (writeOri fs c ori none).1 ori none = .ok d ∧
      SameCal rot { c with added := [0, 0, 0, 0, 0, 1, 0] } d := by
  obtain ⟨g0, g1, g2, hg'⟩ : ∃ g0 g1 g2, c.glass = [g0, g1, g2] := by
    match hc : c.glass, hg with
    | [a, b, d], _ => exact ⟨a, b, d, rfl⟩
  have hw : writeOri fs c ori none =
      (fs.write ori (oriText c ++ '\n' :: row3Text 15 ⟨g0, g1, g2⟩), .ok false) := by
    rw [writeOri, glassText_eq c g0 g1 g2 hg']
    rfl
  rw [hw]
  refine ⟨_, fromFile_text rot _ c ori none g0 g1 g2 [0, 0, 0, 0, 0, 1, 0] (by simp [FS.write]) rfl, ?_⟩
  have := sameCal_rounded rot c
  refine ⟨this.pos, this.angles, this.prim, ?_, ?_, this.dm⟩
  · simp only [hg']
    exact .cons (rnd_rounded _ _) (.cons (rnd_rounded _ _) (.cons (rnd_rounded _ _) .nil))
  · have h0 : Rounded 8 0 0 := by
      have := rnd_rounded 8 0
      rwa [show rnd 8 0 = 0 by decide +kernel] at this
    have h1 : Rounded 8 1 1 := by
      have := rnd_rounded 8 1
      rwa [show rnd 8 1 = 1 by decide +kernel] at this
    exact .cons h0 (.cons h0 (.cons h0 (.cons h0 (.cons h0 (.cons h1 (.cons h0 .nil))))))

/-- C49, refuted for `Calibration.write` without a file of added parameters: the orientation file is written and
the call still raises an IOError. -/
theorem C49_write_refuted (fs : FS) (c : Cal) (ori : List Char) (hg : c.glass.length = 3) :
    (calWrite fs c ori none).2 = .error .ioError ∧ (calWrite fs c ori none).1 ori ≠ none := by
  obtain ⟨g0, g1, g2, hg'⟩ : ∃ g0 g1 g2, c.glass = [g0, g1, g2] := by
    match hc : c.glass, hg with
    | [a, b, d], _ => exact ⟨a, b, d, rfl⟩
  have hw : writeOri fs c ori none =
      (fs.write ori (oriText c ++ '\n' :: row3Text 15 ⟨g0, g1, g2⟩), .ok false) := by
    rw [writeOri, glassText_eq c g0 g1 g2 hg']
    rfl
  rw [calWrite, hw]
  simp [FS.write]

/-- C49, refuted for `read_ori`: whatever readable files hold, it returns the default calibration. -/
theorem C49_read_ori_refuted (rot : Row3 → Mat3) (fs : FS) (c : Cal) (ori add : List Char) (hne : ori ≠ add)
    (hg : c.glass.length = 3) (ha : c.added.length = 7) :
    readOri rot (writeOri fs c ori (some add)).1 ori (some add) =
      .ok ⟨⟨0, 0, 0⟩, ⟨0, 0, 0⟩, ⟨⟨1, 0, 0⟩, ⟨0, 1, 0⟩, ⟨0, 0, 1⟩⟩, ⟨0, 0, 0⟩, [0, 0, 1], [0, 0, 0, 0, 0, 1, 0]⟩ := by
  obtain ⟨-, d, h, -⟩ := C49_roundtrip rot fs c ori add hne hg ha
  rw [readOri, h]
  rfl

/-- C49: a missing orientation file is an IOError. -/
theorem C49_missing (rot : Row3 → Mat3) (fs : FS) (ori : List Char) (add : Option (List Char)) (h : fs ori = none) :
    fromFile rot fs ori add = .error .ioError := by
  rw [fromFile, FS.read, h]; rfl

theorem mul_lip {a b a' b' e f : ℝ} (ha : |a| ≤ 1) (hb : |b'| ≤ 1) (h1 : |a' - a| ≤ e) (h2 : |b' - b| ≤ f) :
    |a' * b' - a * b| ≤ e + f := by
  have e1 : a' * b' - a * b = (a' - a) * b' + a * (b' - b) := by ring
  rw [e1]
  refine (abs_add_le _ _).trans (add_le_add ?_ ?_)
  · rw [abs_mul]
    calc |a' - a| * |b'| ≤ |a' - a| * 1 := mul_le_mul_of_nonneg_left hb (abs_nonneg _)
      _ ≤ e := by rw [mul_one]; exact h1
  · rw [abs_mul]
    calc |a| * |b' - b| ≤ 1 * |b' - b| := mul_le_mul_of_nonneg_right ha (abs_nonneg _)
      _ ≤ f := by rw [one_mul]; exact h2

theorem mul_abs_le {a b : ℝ} (ha : |a| ≤ 1) (hb : |b| ≤ 1) : |a * b| ≤ 1 := by
  rw [abs_mul]
  exact mul_le_one₀ ha (abs_nonneg _) hb

theorem add_lip {a b a' b' e f : ℝ} (h1 : |a' - a| ≤ e) (h2 : |b' - b| ≤ f) :
    |(a' + b') - (a + b)| ≤ e + f := by
  rw [show (a' + b') - (a + b) = (a' - a) + (b' - b) by ring]
  exact (abs_add_le _ _).trans (add_le_add h1 h2)

theorem sub_lip {a b a' b' e f : ℝ} (h1 : |a' - a| ≤ e) (h2 : |b' - b| ≤ f) :
    |(a' - b') - (a - b)| ≤ e + f := by
  rw [show (a' - b') - (a - b) = (a' - a) - (b' - b) by ring]
  exact (abs_sub _ _).trans (add_le_add h1 h2)

theorem neg_lip {a a' e : ℝ} (h1 : |a' - a| ≤ e) : |(-a') - (-a)| ≤ e := by
  rw [show (-a') - (-a) = -(a' - a) by ring, abs_neg]
  exact h1

/-- C49: the rotation matrix is not much changed by the rounding of the angles: if these change by at most `ε`,
every entry changes by at most `5 ε`. -/
theorem C49_rotation (o p k o' p' k' ε : ℝ) (ho : |o' - o| ≤ ε) (hp : |p' - p| ≤ ε) (hk : |k' - k| ≤ ε) :
    let M := Geo.rotationMatrix o p k
    let M' := Geo.rotationMatrix o' p' k'
    |M'.r0.x - M.r0.x| ≤ 5 * ε ∧ |M'.r0.y - M.r0.y| ≤ 5 * ε ∧ |M'.r0.z - M.r0.z| ≤ 5 * ε ∧
    |M'.r1.x - M.r1.x| ≤ 5 * ε ∧ |M'.r1.y - M.r1.y| ≤ 5 * ε ∧ |M'.r1.z - M.r1.z| ≤ 5 * ε ∧
    |M'.r2.x - M.r2.x| ≤ 5 * ε ∧ |M'.r2.y - M.r2.y| ≤ 5 * ε ∧ |M'.r2.z - M.r2.z| ≤ 5 * ε := by
  have hε : 0 ≤ ε := (abs_nonneg _).trans ho
  have co := (Real.abs_cos_sub_cos_le o' o).trans ho
  have so := (Real.abs_sin_sub_sin_le o' o).trans ho
  have cp := (Real.abs_cos_sub_cos_le p' p).trans hp
  have sp := (Real.abs_sin_sub_sin_le p' p).trans hp
  have ck := (Real.abs_cos_sub_cos_le k' k).trans hk
  have sk := (Real.abs_sin_sub_sin_le k' k).trans hk
  have C := Real.abs_cos_le_one
  have S := Real.abs_sin_le_one
  have N : ∀ x : ℝ, |-Real.cos x| ≤ 1 := fun x => by rw [abs_neg]; exact C x
  have N' : ∀ x : ℝ, |-Real.sin x| ≤ 1 := fun x => by rw [abs_neg]; exact S x
  simp only [Geo.rotationMatrix]
  refine ⟨?_, ?_, ?_, ?_, ?_, ?_, ?_, ?_, ?_⟩
  · exact (mul_lip (C p) (C k') cp ck).trans (by linarith)
  · exact (mul_lip (N p) (S k') (neg_lip cp) sk).trans (by linarith)
  · exact sp.trans (by linarith)
  · exact (add_lip (mul_lip (C o) (S k') co sk) (mul_lip (mul_abs_le (S o) (S p)) (C k') (mul_lip (S o) (S p') so sp)
      ck)).trans (by linarith)
  · exact (sub_lip (mul_lip (C o) (C k') co ck) (mul_lip (mul_abs_le (S o) (S p)) (S k') (mul_lip (S o) (S p') so sp)
      sk)).trans (by linarith)
  · exact (mul_lip (N' o) (C p') (neg_lip so) cp).trans (by linarith)
  · exact (sub_lip (mul_lip (S o) (S k') so sk) (mul_lip (mul_abs_le (C o) (S p)) (C k') (mul_lip (C o) (S p') co sp)
      ck)).trans (by linarith)
  · exact (add_lip (mul_lip (S o) (C k') so ck) (mul_lip (mul_abs_le (C o) (S p)) (S k') (mul_lip (C o) (S p') co sp)
      sk)).trans (by linarith)
  · exact (mul_lip (C o) (C p') co cp).trans (by linarith)

/-- C76: `compare_calibration` of a calibration with itself is true. -/
theorem C76_refl (c : Cal) : compareCalibration c c = true := by
  have h : ∀ a : ℚ, close a a = true := by
    intro a
    rw [close, decide_eq_true_iff, sub_self, abs_zero]
    positivity
  simp [compareCalibration, compareExterior, compareInterior, closeRow, h]

/-- C76: two calibrations that compare as equal have the same position, angles, interior orientation and glass
vector; if each has the rotation matrix of its angles they have the same one, too. -/
theorem C76_sound_partial (rot : Row3 → Mat3) (c d : Cal) (h : compareCalibration c d = true) :
    c.pos = d.pos ∧ c.angles = d.angles ∧ c.prim = d.prim ∧ c.glass = d.glass ∧
      (c.dm = rot c.angles → d.dm = rot d.angles → c.dm = d.dm) := by
  obtain ⟨⟨x, y, z⟩, ⟨o, p, k⟩, dm, ⟨xh, yh, cc⟩, gl, ad⟩ := c
  obtain ⟨⟨x', y', z'⟩, ⟨o', p', k'⟩, dm', ⟨xh', yh', cc'⟩, gl', ad'⟩ := d
  simp only [compareCalibration, compareExterior, compareInterior, Bool.and_eq_true, decide_eq_true_iff] at h
  obtain ⟨⟨⟨⟨⟨⟨⟨⟨-, h1⟩, h2⟩, h3⟩, h4⟩, h5⟩, h6⟩, ⟨h7, h8⟩, h9⟩, h10⟩ := h
  subst h1 h2 h3 h4 h5 h6 h7 h8 h9 h10
  exact ⟨rfl, rfl, rfl, rfl, fun e1 e2 => e1.trans e2.symm⟩

/-- Entries of two matrices that agree within the tolerance of `compare_calibration`: a millionth plus a hundred-thousandth of the
second. -/
def EntryNear (a b : ℚ) : Prop := |a - b| ≤ 1 / 10 ^ 6 + |b| / 10 ^ 5

/-- All nine entries agree within the tolerance. -/
def MatNear (m n : Mat3) : Prop :=
  EntryNear m.r0.a n.r0.a ∧ EntryNear m.r0.b n.r0.b ∧ EntryNear m.r0.c n.r0.c ∧
  EntryNear m.r1.a n.r1.a ∧ EntryNear m.r1.b n.r1.b ∧ EntryNear m.r1.c n.r1.c ∧
  EntryNear m.r2.a n.r2.a ∧ EntryNear m.r2.b n.r2.b ∧ EntryNear m.r2.c n.r2.c

/-- C76: exactly what `compare_calibration` decides: equal position, angles, interior orientation and glass vector, and rotation
matrices that agree within the tolerance in every entry. -/
theorem C76_decides (c d : Cal) : compareCalibration c d = true ↔
    c.pos = d.pos ∧ c.angles = d.angles ∧ c.prim = d.prim ∧ c.glass = d.glass ∧ MatNear c.dm d.dm := by
  have e : ∀ a b : ℚ, close a b = true ↔ EntryNear a b := by
    intro a b
    rw [close, decide_eq_true_iff, EntryNear]
    norm_num [div_eq_mul_inv, mul_comm]
  obtain ⟨⟨x, y, z⟩, ⟨o, p, k⟩, dm, ⟨xh, yh, cc⟩, gl, ad⟩ := c
  obtain ⟨⟨x', y', z'⟩, ⟨o', p', k'⟩, dm', ⟨xh', yh', cc'⟩, gl', ad'⟩ := d
  simp only [compareCalibration, compareExterior, compareInterior, closeRow, Bool.and_eq_true, decide_eq_true_iff, e, MatNear,
    Row3.mk.injEq]
  tauto

/-- C76, refuted: calibrations that differ in their distortion parameters only, by any amount, compare as
equal. -/
theorem C76_distortion_refuted (c : Cal) (added : List ℚ) (h : added ≠ c.added) :
    compareCalibration c { c with added := added } = true ∧ c ≠ { c with added := added } := by
  refine ⟨C76_refl c, ?_⟩
  intro e
  exact h (congrArg Cal.added e).symm

/-! Concrete cases. -/

/-- A calibration. -/
def exCal : Cal :=
  ⟨⟨105 + 1 / 3, -12, 403⟩, ⟨-4 / 17, 1 / 4, 7 / 1000⟩, ⟨⟨1, 0, 0⟩, ⟨0, 1, 0⟩, ⟨0, 0, 1⟩⟩, ⟨-1 / 10, 1 / 7, 92⟩, [1 / 1000, -1 / 9, 100],
    [1 / 30000, 0, 0, 0, -1 / 7, 1, 0]⟩

example : exCal.glass.length = 3 ∧ exCal.added.length = 7 := ⟨rfl, rfl⟩
example : (fromFile (fun _ => exCal.dm) (writeOri (fun _ => none) exCal ['o'] (some ['a'])).1 ['o'] (some ['a'])).map Cal.pos =
    .ok ⟨105 + 33333333 / 100000000, -12, 403⟩ := by decide +kernel
example : compareCalibration exCal { exCal with dm := ⟨⟨1, 1 / 10 ^ 7, 0⟩, ⟨0, 1, 0⟩, ⟨0, 0, 1⟩⟩ } = true := by decide +kernel
example : compareCalibration exCal { exCal with dm := ⟨⟨1, 1 / 10 ^ 5, 0⟩, ⟨0, 1, 0⟩, ⟨0, 0, 1⟩⟩ } = false := by decide +kernel
example : [0, 0, 0, 0, 0, 1, 0] ≠ exCal.added := by decide +kernel

end Verif.IO
