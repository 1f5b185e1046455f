/-
C43, C44: parameter files (parameters.py).
-/
import Verif.Proofs.ParamIO

namespace Verif.IO
open Text Spec

/-- C43: the volume file holds, line by line, x, z_min, z_max of the first layer, the same of the second,
then cnx, cny, cn, csumg, corrmin and eps0. -/
theorem C43_volume (s : List Char) (v : VolumePar) : readVolumePar s = .ok v ↔
    (∃ a b, v.xLay = [a, b] ∧ NumOn s 0 a ∧ NumOn s 3 b) ∧
    (∃ a b, v.zMinLay = [a, b] ∧ NumOn s 1 a ∧ NumOn s 4 b) ∧
    (∃ a b, v.zMaxLay = [a, b] ∧ NumOn s 2 a ∧ NumOn s 5 b) ∧
    NumOn s 6 v.cnx ∧ NumOn s 7 v.cny ∧ NumOn s 8 v.cn ∧ NumOn s 9 v.csumg ∧ NumOn s 10 v.corrmin ∧
    NumOn s 11 v.eps0 := by
  rw [readVolumePar, lines_eq_drop]
  simp only [bindFloat, Nat.zero_add, Nat.reduceAdd, Except.ok.injEq]
  constructor
  · rintro ⟨a0, h0, a1, h1, a2, h2, a3, h3, a4, h4, a5, h5, a6, h6, a7, h7, a8, h8, a9, h9, a10, h10, a11, h11, rfl⟩
    exact ⟨⟨a0, a3, rfl, h0, h3⟩, ⟨a1, a4, rfl, h1, h4⟩, ⟨a2, a5, rfl, h2, h5⟩, h6, h7, h8, h9, h10, h11⟩
  · rintro ⟨⟨a0, a3, e1, h0, h3⟩, ⟨a1, a4, e2, h1, h4⟩, ⟨a2, a5, e3, h2, h5⟩, h6, h7, h8, h9, h10, h11⟩
    refine ⟨a0, h0, a1, h1, a2, h2, a3, h3, a4, h4, a5, h5, _, h6, _, h7, _, h8, _, h9, _, h10, _, h11, ?_⟩
    rw [← e1, ← e2, ← e3]

/-- C43: the tracking file. The other four values are zero. -/
theorem C43_track (s : List Char) (v : TrackPar) : readTrackPar s = .ok v ↔
    NumOn s 0 v.dvxmin ∧ NumOn s 1 v.dvxmax ∧ NumOn s 2 v.dvymin ∧ NumOn s 3 v.dvymax ∧ NumOn s 4 v.dvzmin ∧
    NumOn s 5 v.dvzmax ∧ NumOn s 6 v.dangle ∧ NumOn s 7 v.dacc ∧ IntOn s 8 v.add ∧
    v.dsumg = 0 ∧ v.dn = 0 ∧ v.dnx = 0 ∧ v.dny = 0 := by
  rw [readTrackPar, lines_eq_drop]
  simp only [bindFloat, bindInt, Nat.zero_add, Nat.reduceAdd, Except.ok.injEq]
  constructor
  · rintro ⟨a0, h0, a1, h1, a2, h2, a3, h3, a4, h4, a5, h5, a6, h6, a7, h7, a8, h8, rfl⟩
    exact ⟨h0, h1, h2, h3, h4, h5, h6, h7, h8, rfl, rfl, rfl, rfl⟩
  · rintro ⟨h0, h1, h2, h3, h4, h5, h6, h7, h8, e1, e2, e3, e4⟩
    refine ⟨_, h0, _, h1, _, h2, _, h3, _, h4, _, h5, _, h6, _, h7, _, h8, ?_⟩
    cases v
    simp_all

/-- C43: the sequence file: a base name per camera, the first and the last frame. -/
theorem C43_sequence (s : List Char) (n : ℕ) (v : SequencePar) : readSequencePar s n = .ok v ↔
    v.imgBaseName.length = n ∧ TextsOn s 0 v.imgBaseName ∧ IntOn s n v.first ∧ IntOn s (n + 1) v.last := by
  rw [readSequencePar, lines_eq_drop]
  simp only [bindInt, bindStrs, Nat.zero_add, Except.ok.injEq]
  constructor
  · rintro ⟨a0, h0, h1, a2, h2, a3, h3, rfl⟩
    exact ⟨h0, h1, h2, h3⟩
  · rintro ⟨h0, h1, h2, h3⟩
    exact ⟨_, h0, h1, _, h2, _, h3, rfl⟩

/-- C43: the orientation file: twelve flags in the order of the parameter set. -/
theorem C43_orient (s : List Char) (v : OrientPar) : readOrientPar s = .ok v ↔
    IntOn s 0 v.useflag ∧ IntOn s 1 v.ccflag ∧ IntOn s 2 v.xhflag ∧ IntOn s 3 v.yhflag ∧ IntOn s 4 v.k1flag ∧
    IntOn s 5 v.k2flag ∧ IntOn s 6 v.k3flag ∧ IntOn s 7 v.p1flag ∧ IntOn s 8 v.p2flag ∧ IntOn s 9 v.scxflag ∧
    IntOn s 10 v.sheflag ∧ IntOn s 11 v.interfflag := by
  rw [readOrientPar, lines_eq_drop]
  simp only [bindInt, Nat.zero_add, Nat.reduceAdd, Except.ok.injEq]
  constructor
  · rintro ⟨a0, h0, a1, h1, a2, h2, a3, h3, a4, h4, a5, h5, a6, h6, a7, h7, a8, h8, a9, h9, a10, h10, a11, h11, rfl⟩
    exact ⟨h0, h1, h2, h3, h4, h5, h6, h7, h8, h9, h10, h11⟩
  · rintro ⟨h0, h1, h2, h3, h4, h5, h6, h7, h8, h9, h10, h11⟩
    exact ⟨_, h0, _, h1, _, h2, _, h3, _, h4, _, h5, _, h6, _, h7, _, h8, _, h9, _, h10, _, h11, rfl⟩

/-- C43: the control file: number of cameras, two names per camera, then flags, image size, pixel size, field,
and the refractive indices n1, n2, n3 and the thickness. -/
theorem C43_control (s : List Char) (v : ControlPar) : readControlPar s = .ok v ↔
    IntOn s 0 v.numCams ∧
    v.imgBaseName.length = v.numCams.toNat ∧ v.calImgBaseName.length = v.numCams.toNat ∧
    (∀ (i : ℕ) (t : List Char), v.imgBaseName[i]? = some t → TextOn s (1 + 2 * i) t) ∧
    (∀ (i : ℕ) (t : List Char), v.calImgBaseName[i]? = some t → TextOn s (2 + 2 * i) t) ∧
    IntOn s (1 + 2 * v.numCams.toNat) v.hpFlag ∧ IntOn s (2 + 2 * v.numCams.toNat) v.allCamFlag ∧
    IntOn s (3 + 2 * v.numCams.toNat) v.tiffFlag ∧ IntOn s (4 + 2 * v.numCams.toNat) v.imx ∧
    IntOn s (5 + 2 * v.numCams.toNat) v.imy ∧ NumOn s (6 + 2 * v.numCams.toNat) v.pixX ∧
    NumOn s (7 + 2 * v.numCams.toNat) v.pixY ∧ IntOn s (8 + 2 * v.numCams.toNat) v.chfield ∧
    NumOn s (9 + 2 * v.numCams.toNat) v.mm.n1 ∧
    (∃ a, v.mm.n2 = [a] ∧ NumOn s (10 + 2 * v.numCams.toNat) a) ∧
    NumOn s (11 + 2 * v.numCams.toNat) v.mm.n3 ∧
    (∃ a, v.mm.d = [a] ∧ NumOn s (12 + 2 * v.numCams.toNat) a) ∧ v.mm.nlay = 1 := by
  rw [readControlPar, lines_eq_drop]
  simp only [bindFloat, bindInt, bindNames, Nat.zero_add, Except.ok.injEq]
  constructor
  · rintro ⟨n, h0, xs, hl, hx, a1, h1, a2, h2, a3, h3, a4, h4, a5, h5, a6, h6, a7, h7, a8, h8, a9, h9, a10, h10,
      a11, h11, a12, h12, rfl⟩
    have e1 := evens_length xs _ hl
    have e2 := odds_length xs _ hl
    rw [textsOn_evens_odds] at hx
    have f1 : ((evens xs).zip (odds xs)).map Prod.fst = evens xs := List.map_fst_zip (by omega)
    have f2 : ((evens xs).zip (odds xs)).map Prod.snd = odds xs := List.map_snd_zip (by omega)
    simp only
    rw [f1, f2]
    have hk : ∀ j : ℕ, 1 + n.toNat * 2 + j = (1 + j) + 2 * n.toNat := by intro j; omega
    simp only [Nat.add_assoc, Nat.reduceAdd] at *
    simp only [← Nat.add_assoc, hk] at *
    refine ⟨h0, e1, e2, ?_, ?_, ?_, h2, h3, h4, h5, h6, h7, h8, h9, ⟨_, rfl, h10⟩, h11, ⟨_, rfl, h12⟩, trivial⟩
    · intro i t ht; exact hx.1 i t ht
    · intro i t ht
      have := hx.2 i t ht
      rwa [show 1 + 2 * i + 1 = 2 + 2 * i by omega] at this
    · rwa [Nat.mul_comm] at h1
  · rintro ⟨h0, e1, e2, g1, g2, h1, h2, h3, h4, h5, h6, h7, h8, h9, ⟨a10, k1, h10⟩, h11, ⟨a12, k2, h12⟩, k3⟩
    obtain ⟨xs, hl, ex, ox⟩ := interleave v.imgBaseName v.calImgBaseName _ e1 e2
    have hx : TextsOn s 1 xs := by
      rw [textsOn_evens_odds, ex, ox]
      refine ⟨g1, fun i t ht => ?_⟩
      have := g2 i t ht
      rwa [show 2 + 2 * i = 1 + 2 * i + 1 by omega] at this
    have hk : ∀ j : ℕ, (1 + j) + 2 * v.numCams.toNat = 1 + v.numCams.toNat * 2 + j := by intro j; omega
    refine ⟨v.numCams, h0, xs, hl, hx, v.hpFlag, ?_, v.allCamFlag, ?_, v.tiffFlag, ?_, v.imx, ?_, v.imy, ?_,
      v.pixX, ?_, v.pixY, ?_, v.chfield, ?_, v.mm.n1, ?_, a10, ?_, v.mm.n3, ?_, a12, ?_, ?_⟩
    · convert h1 using 1; omega
    · convert h2 using 1; omega
    · convert h3 using 1; omega
    · convert h4 using 1; omega
    · convert h5 using 1; omega
    · convert h6 using 1; omega
    · convert h7 using 1; omega
    · convert h8 using 1; omega
    · convert h9 using 1; omega
    · convert h10 using 1; omega
    · convert h11 using 1; omega
    · convert h12 using 1; omega
    · rw [ex, ox, List.map_fst_zip (by omega), List.map_snd_zip (by omega), ← k1, ← k2, ← k3]

/-- C43: the calibration file list: the fixed points, two names per camera and three flags. -/
theorem C43_calibration (s : List Char) (n : ℕ) (v : CalibrationPar) : readCalibrationPar s n = .ok v ↔
    TextOn s 0 v.fixpName ∧ v.imgName.length = n ∧ v.imgOri0.length = n ∧
    (∀ (i : ℕ) (t : List Char), v.imgName[i]? = some t → TextOn s (1 + 2 * i) t) ∧
    (∀ (i : ℕ) (t : List Char), v.imgOri0[i]? = some t → TextOn s (2 + 2 * i) t) ∧
    IntOn s (1 + 2 * n) v.tiffFlag ∧ IntOn s (2 + 2 * n) v.pairFlag ∧ IntOn s (3 + 2 * n) v.chfield := by
  rw [readCalibrationPar, lines_eq_drop]
  simp only [bindStr, bindInt, bindStrs, Nat.zero_add, Except.ok.injEq]
  constructor
  · rintro ⟨n0, h0, xs, hl, hx, a1, h1, a2, h2, a3, h3, rfl⟩
    rw [textsOn_evens_odds] at hx
    refine ⟨h0, evens_length xs _ hl, odds_length xs _ hl, fun i t ht => hx.1 i t ht, fun i t ht => ?_, ?_, ?_, ?_⟩
    · convert hx.2 i t ht using 1; omega
    · convert h1 using 1; omega
    · convert h2 using 1; omega
    · convert h3 using 1; omega
  · rintro ⟨h0, e1, e2, g1, g2, h1, h2, h3⟩
    obtain ⟨xs, hl, ex, ox⟩ := interleave v.imgName v.imgOri0 _ e1 e2
    refine ⟨_, h0, xs, hl, ?_, v.tiffFlag, ?_, v.pairFlag, ?_, v.chfield, ?_, ?_⟩
    · rw [textsOn_evens_odds, ex, ox]
      refine ⟨g1, fun i t ht => ?_⟩
      convert g2 i t ht using 1; omega
    · convert h1 using 1; omega
    · convert h2 using 1; omega
    · convert h3 using 1; omega
    · rw [ex, ox]

/-- C43: the file of calibration planes: their number, then their names. -/
theorem C43_planes (s : List Char) (v : MultiPlanesPar) : readMultiPlanesPar s = .ok v ↔
    IntOn s 0 v.numPlanes ∧ v.filename.length = v.numPlanes.toNat ∧ TextsOn s 1 v.filename := by
  rw [readMultiPlanesPar, lines_eq_drop]
  simp only [bindInt, bindStrs, Nat.zero_add, Except.ok.injEq]
  constructor
  · rintro ⟨n, h0, xs, h1, h2, rfl⟩
    exact ⟨h0, h1, h2⟩
  · rintro ⟨h0, h1, h2⟩
    exact ⟨_, h0, _, h1, h2, rfl⟩

/-- C43: the two flags of the examine file: zero means no, any other number yes. -/
theorem C43_examine (s : List Char) (a b : Bool) : readExaminePar s = .ok (a, b) ↔
    ∃ i j, IntOn s 0 i ∧ IntOn s 1 j ∧ (a = true ↔ i ≠ 0) ∧ (b = true ↔ j ≠ 0) := by
  rw [readExaminePar, lines_eq_drop]
  simp only [bindInt, Nat.zero_add, Except.ok.injEq, Prod.mk.injEq]
  constructor
  · rintro ⟨i, h0, j, h1, rfl, rfl⟩
    exact ⟨i, j, h0, h1, by simp, by simp⟩
  · rintro ⟨i, j, h0, h1, h2, h3⟩
    refine ⟨i, h0, j, h1, ?_, ?_⟩
    · rw [Bool.eq_iff_iff, decide_eq_true_iff, h2]
    · rw [Bool.eq_iff_iff, decide_eq_true_iff, h3]

/-- C43: the target recognition file: four thresholds, then the nine other values. -/
theorem C43_target (s : List Char) (v : TargetPar) : readTargetParText s = .ok v ↔
    (∃ a b c d, v.gvthresh = [a, b, c, d] ∧ IntOn s 0 a ∧ IntOn s 1 b ∧ IntOn s 2 c ∧ IntOn s 3 d) ∧
    IntOn s 4 v.discont ∧ IntOn s 5 v.nnmin ∧ IntOn s 6 v.nnmax ∧ IntOn s 7 v.nxmin ∧ IntOn s 8 v.nxmax ∧
    IntOn s 9 v.nymin ∧ IntOn s 10 v.nymax ∧ IntOn s 11 v.sumgMin ∧ IntOn s 12 v.crSz := by
  rw [readTargetParText, lines_eq_drop]
  simp only [bindInt, bindInts, Nat.zero_add, Nat.reduceAdd, Except.ok.injEq]
  constructor
  · rintro ⟨xs, hl, hx, a4, h4, a5, h5, a6, h6, a7, h7, a8, h8, a9, h9, a10, h10, a11, h11, a12, h12, rfl⟩
    refine ⟨?_, h4, h5, h6, h7, h8, h9, h10, h11, h12⟩
    match xs, hl with
    | [a, b, c, d], _ =>
      exact ⟨a, b, c, d, rfl, hx 0 a rfl, hx 1 b rfl, hx 2 c rfl, hx 3 d rfl⟩
  · rintro ⟨⟨a, b, c, d, e, g0, g1, g2, g3⟩, h4, h5, h6, h7, h8, h9, h10, h11, h12⟩
    refine ⟨[a, b, c, d], rfl, ?_, _, h4, _, h5, _, h6, _, h7, _, h8, _, h9, _, h10, _, h11, _, h12, ?_⟩
    · intro k x hk
      match k, hk with
      | 0, hk => simp at hk; subst hk; exact g0
      | 1, hk => simp at hk; subst hk; exact g1
      | 2, hk => simp at hk; subst hk; exact g2
      | 3, hk => simp at hk; subst hk; exact g3
      | k + 4, hk => simp at hk
    · rw [← e]

theorem intOn_joinNl {xs : List ℤ} {k : ℕ} {x : ℤ} (h : xs[k]? = some x) :
    IntOn (joinNl (xs.map intStr)) k x := by
  rw [IntOn, lineAt, lines_joinNl _ (by
    intro w hw
    obtain ⟨n, -, rfl⟩ := List.mem_map.mp hw
    exact intStr_word n)]
  rw [List.getD_eq_getElem?_getD, List.getElem?_map, h]
  exact pyInt_intStr x

/-- With four thresholds or more, the parameters come back with the first four thresholds. -/
theorem C43_target_first_four (fs : FS) (t : TargetPar) (name : List Char) (h : 4 ≤ t.gvthresh.length) :
    (writeTargetPar fs t name).2 = .ok () ∧
      readTargetPar (writeTargetPar fs t name).1 name = .ok { t with gvthresh := t.gvthresh.take 4 } := by
  match hg : t.gvthresh, h with
  | a :: b :: c :: d :: gs, _ =>
    have e : targetParText t = .ok (joinNl ([a, b, c, d, t.discont, t.nnmin, t.nnmax, t.nxmin, t.nxmax, t.nymin,
        t.nymax, t.sumgMin, t.crSz].map intStr)) := by
      rw [targetParText, hg]; rfl
    rw [writeTargetPar, e]
    refine ⟨rfl, ?_⟩
    simp only [readTargetPar, FS.write, if_true]
    rw [C43_target]
    exact ⟨⟨a, b, c, d, rfl, intOn_joinNl rfl, intOn_joinNl rfl, intOn_joinNl rfl, intOn_joinNl rfl⟩,
      intOn_joinNl rfl, intOn_joinNl rfl, intOn_joinNl rfl, intOn_joinNl rfl, intOn_joinNl rfl, intOn_joinNl rfl,
      intOn_joinNl rfl, intOn_joinNl rfl, intOn_joinNl rfl⟩

/-- C43: target recognition parameters with four thresholds survive the file unchanged, whatever was on the
disk. (Partial: other numbers of thresholds do not survive, `C43_target_refuted`, `C43_target_more_refuted`.) -/
theorem C43_target_roundtrip_partial (fs : FS) (t : TargetPar) (name : List Char) (h : t.gvthresh.length = 4) :
    (writeTargetPar fs t name).2 = .ok () ∧ readTargetPar (writeTargetPar fs t name).1 name = .ok t := by
  have := C43_target_first_four fs t name (by omega)
  rwa [List.take_of_length_le (by omega)] at this

/-- C43, refuted for more than four thresholds: the others are lost without a report. -/
theorem C43_target_more_refuted (fs : FS) (t : TargetPar) (name : List Char) (h : 4 < t.gvthresh.length) :
    (writeTargetPar fs t name).2 = .ok () ∧ readTargetPar (writeTargetPar fs t name).1 name ≠ .ok t := by
  obtain ⟨h1, h2⟩ := C43_target_first_four fs t name (by omega)
  refine ⟨h1, ?_⟩
  rw [h2]
  intro e
  have := congrArg TargetPar.gvthresh (Except.ok.inj e)
  have := congrArg List.length this
  simp at this
  omega

/-- C43, refuted for fewer than four thresholds (one, two or three cameras): the writer raises an IndexError
and leaves an empty file, which the reader refuses. -/
theorem C43_target_refuted (fs : FS) (t : TargetPar) (name : List Char) (h : t.gvthresh.length < 4) :
    (writeTargetPar fs t name).2 = .error .indexError ∧ (writeTargetPar fs t name).1 name = some [] ∧
      readTargetPar (writeTargetPar fs t name).1 name = .error .valueError := by
  have e : targetParText t = .error .indexError := by
    rw [targetParText]
    match hg : t.gvthresh, h with
    | [], _ => rfl
    | [_], _ => rfl
    | [_, _], _ => rfl
    | [_, _, _], _ => rfl
  rw [writeTargetPar, e]
  refine ⟨rfl, by simp [FS.write], ?_⟩
  simp only [readTargetPar, FS.write, if_true]
  rfl

/-- Missing files: defaults without an error for the target and orientation parameters, and a TypeError instead
of the intended message for the tracking parameters. -/
theorem C43_missing (fs : FS) (name : List Char) (h : fs name = none) :
    readTargetPar fs name = .ok ⟨[], 100, 1, 100, 1, 100, 1, 100, 10, 1⟩ ∧
      readOrientParFile fs name = .ok ⟨0, 0, 0, 0, 0, 0, 0, 0, 0, 0, 0, 0⟩ ∧
      readTrackParFile fs name = .error .typeError := by
  simp [readTargetPar, readOrientParFile, readTrackParFile, h, TargetPar.default]

/-- C44, refuted for both values of the flag: what `PftVersionPar.write` writes is not a number, so that
`PftVersionPar.from_file` raises a ValueError. -/
theorem C44_refuted (flag : Bool) : readPftVersion (writePftVersion flag) = .error .valueError := by
  cases flag <;> rfl

/-- C44: the reader takes a number, zero for no. -/
theorem C44_reader (s : List Char) (flag : Bool) :
    readPftVersion s = .ok flag ↔ ∃ i, IntOn s 0 i ∧ (flag = true ↔ i ≠ 0) := by
  rw [readPftVersion, lines_eq_drop]
  simp only [bindInt, Except.ok.injEq]
  constructor
  · rintro ⟨i, h0, rfl⟩
    exact ⟨i, h0, by simp⟩
  · rintro ⟨i, h0, h1⟩
    exact ⟨i, h0, by rw [Bool.eq_iff_iff, decide_eq_true_iff, h1]⟩

/-! Concrete cases. -/

def exLines (ls : List String) : List Char := ls.flatMap fun l => l.toList ++ ['\n']

example : readVolumePar (exLines ["-40.0", "-20", "25.5", "40", "-20", "25.5", "0.02", "0.02", "0.01", "0.3", "33",
    "0.05"]) = .ok ⟨[-40, 40], [-20, -20], [51 / 2, 51 / 2], 1 / 100, 1 / 50, 1 / 50, 3 / 10, 1 / 20, 33⟩ := by
  decide +kernel

example : readTrackPar (exLines ["-2", "2", "-2.5", "2", "-2", "2", "100", "0.5", "1"]) =
    .ok ⟨-2, 2, -5 / 2, 2, -2, 2, 100, 1 / 2, 1, 0, 0, 0, 0⟩ := by decide +kernel

example : (readSequencePar (exLines ["img/cam1.%d ", "img/cam2.%d", "1", "10"]) 2).map (fun v => (v.imgBaseName.length,
    v.first, v.last)) = .ok (2, 1, 10) := by decide +kernel

example : readControlPar (exLines ["2", "a.1", "cal/a1", "a.2", "cal/a2", "1", "0", "1", "1280", "1024", "0.012",
    "0.012", "0", "1", "1.33", "1.46", "6"]) = .ok ⟨2, ["a.1".toList, "a.2".toList], ["cal/a1".toList,
    "cal/a2".toList], 1, 0, 1, 1280, 1024, 12 / 1000, 12 / 1000, 0, ⟨1, 1, [133 / 100], [6], 146 / 100⟩⟩ := by
  decide +kernel

example : readTargetPar (writeTargetPar (fun _ => none) ⟨[3, 2, -2, 3], 5, 3, 100, 1, 20, 1, 20, 3, 2⟩ ['a']).1 ['a'] =
    .ok ⟨[3, 2, -2, 3], 5, 3, 100, 1, 20, 1, 20, 3, 2⟩ := by decide +kernel

end Verif.IO
