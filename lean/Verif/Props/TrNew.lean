/-
C119: a tracking run from parameter files.
-/
import Verif.Model.TrNew
import Verif.Props.RunInit
import Verif.Props.ParamIO

namespace Verif.Track
open Verif.Geo Verif.IO Verif.Spec Text

/-- Line `i` of the file is the number `x`. -/
def Spec.RealOn (s : List Char) (i : ℕ) (x : ℝ) : Prop := ∃ q : ℚ, NumOn s i q ∧ x = q

/-- The control file says: `n` cameras, images of this size, these pixels, this glass. -/
structure Spec.ControlSays (s : List Char) (n : ℕ) (ip : ImgPar) (mm : MM) : Prop where
  cams : ∃ k : ℤ, IntOn s 0 k ∧ k.toNat = n
  width : ∃ k : ℤ, IntOn s (4 + 2 * n) k ∧ k.toNat = ip.imx
  height : ∃ k : ℤ, IntOn s (5 + 2 * n) k ∧ k.toNat = ip.imy
  pixX : RealOn s (6 + 2 * n) ip.pixX
  pixY : RealOn s (7 + 2 * n) ip.pixY
  n1 : RealOn s (9 + 2 * n) mm.n1
  glass : ∃ n2 d, mm.n2 = [n2] ∧ mm.d = [d] ∧ RealOn s (10 + 2 * n) n2 ∧ RealOn s (12 + 2 * n) d ∧ mm.nlay = 1
  n3 : RealOn s (11 + 2 * n) mm.n3

/-- The tracking file says: these velocity limits, this angle and acceleration, whether to add particles. -/
structure Spec.TrackSays (s : List Char) (vel : Vel) (dangle dacc : ℝ) (add : Bool) : Prop where
  x : RealOn s 0 vel.lo.x ∧ RealOn s 1 vel.hi.x
  y : RealOn s 2 vel.lo.y ∧ RealOn s 3 vel.hi.y
  z : RealOn s 4 vel.lo.z ∧ RealOn s 5 vel.hi.z
  angle : RealOn s 6 dangle
  acc : RealOn s 7 dacc
  add : ∃ k : ℤ, IntOn s 8 k ∧ (add = true ↔ k ≠ 0)

/-- The sequence file says: these base names, this range of frames. -/
structure Spec.SequenceSays (s : List Char) (n : ℕ) (names : List (List Char)) (first last : ℤ) : Prop where
  count : names.length = n
  names : TextsOn s 0 names
  first : IntOn s n first
  last : IntOn s (n + 1) last

/-- The volume file says: this range in x, and these depth limits at its two ends. -/
structure Spec.VolumeSays (s : List Char) (x0 x1 zmin0 zmin1 zmax0 zmax1 : ℝ) : Prop where
  x : RealOn s 0 x0 ∧ RealOn s 3 x1
  zmin : RealOn s 1 zmin0 ∧ RealOn s 4 zmin1
  zmax : RealOn s 2 zmax0 ∧ RealOn s 5 zmax1

open Spec

theorem fsRead_ok {fs : FS} {name s : List Char} (h : fs.read name = .ok s) : fs name = some s := by
  unfold FS.read at h
  split at h
  · cases h; assumption
  · cases h

theorem trNew_parts {fs : FS} {n : ParNames} {cals : List (Cam × LUT)} {tol : ℝ} {r : FileRun} (h : trNew fs n cals tol = .ok r) :
    ∃ sc ss st sv c q t v, fs n.ctrl = some sc ∧ fs n.seq = some ss ∧ fs n.track = some st ∧ fs n.vol = some sv ∧
      readControlPar sc = .ok c ∧ readSequencePar ss c.numCams.toNat = .ok q ∧ readTrackPar st = .ok t ∧ readVolumePar sv = .ok v ∧
      runOf c q t v cals tol = .ok r := by
  simp only [trNew, readControlParFile, readSequenceParFile, readTrackParFile, readVolumeParFile] at h
  obtain ⟨c, h1, h⟩ := bind_ok h
  obtain ⟨sc, f1, h1⟩ := bind_ok h1
  obtain ⟨q, h2, h⟩ := bind_ok h
  obtain ⟨ss, f2, h2⟩ := bind_ok h2
  obtain ⟨t, h3, h⟩ := bind_ok h
  obtain ⟨v, h4, h⟩ := bind_ok h
  obtain ⟨sv, f4, h4⟩ := bind_ok h4
  split at h3
  · cases h3
  · rename_i st f3
    exact ⟨sc, ss, st, sv, c, q, t, v, fsRead_ok f1, fsRead_ok f2, f3, fsRead_ok f4, h1, h2, h3, h4, h⟩

theorem runOf_ok {c : ControlPar} {q : SequencePar} {t : TrackPar} {v : VolumePar} {cals : List (Cam × LUT)} {tol : ℝ} {r : FileRun}
    (h : runOf c q t v cals tol = .ok r) : c.numCams.toNat ≤ cals.length ∧ r.first = q.first ∧ r.last = q.last ∧ r.imgBase = q.imgBaseName ∧
      ∃ v', newRun ⟨cals.take c.numCams.toNat, mmOf c.mm, imgOf c, tol, velOf t, t.dacc, t.dangle, decide (t.add ≠ 0)⟩ (volOf v)
        = some (r.setup, v') := by
  unfold runOf at h
  split at h
  · cases h
  · rename_i hlen
    obtain ⟨p, h1, h⟩ := bind_ok h
    cases h
    refine ⟨by omega, rfl, rfl, rfl, p.2, ?_⟩
    cases e : newRun ⟨cals.take c.numCams.toNat, mmOf c.mm, imgOf c, tol, velOf t, t.dacc, t.dangle, decide (t.add ≠ 0)⟩ (volOf v) with
    | none => rw [e] at h1; cases h1
    | some w => rw [e] at h1; cases h1; rfl

theorem newRun_fields {a : RunArgs} {v v' : Verif.Geo.VPar} {s : Setup} (h : newRun a v = some (s, v')) :
    s.cals = a.cals ∧ s.mm = a.mm ∧ s.ip = a.ip ∧ s.tol = a.tol ∧ s.vel = a.vel ∧ s.dacc = a.dacc ∧ s.dangle = a.dangle ∧ s.add = a.add := by
  simp only [newRun, Option.bind_eq_bind, Option.bind_eq_some_iff, Option.some.injEq, Prod.mk.injEq] at h
  obtain ⟨r, -, rfl, -⟩ := h
  exact ⟨rfl, rfl, rfl, rfl, rfl, rfl, rfl, rfl⟩

/-- C119: if `tr_new` returns, the run tracks the cameras, frames, velocities and angles that are written in the files, in their documented
places, in a volume that encloses the written one. -/
theorem C119_as_written (fs : FS) (n : ParNames) (cals : List (Cam × LUT)) (tol : ℝ) (r : FileRun) (h : trNew fs n cals tol = .ok r) :
    ∃ (sc ss st sv : List Char) (k : ℕ), fs n.ctrl = some sc ∧ fs n.seq = some ss ∧ fs n.track = some st ∧ fs n.vol = some sv ∧
      ControlSays sc k r.setup.ip r.setup.mm ∧ SequenceSays ss k r.imgBase r.first r.last ∧
      TrackSays st r.setup.vel r.setup.dangle r.setup.dacc r.setup.add ∧
      r.setup.cals = cals.take k ∧ k ≤ cals.length ∧ r.setup.tol = tol ∧
      ∃ x0 x1 zmin0 zmin1 zmax0 zmax1, VolumeSays sv x0 x1 zmin0 zmin1 zmax0 zmax1 ∧
        r.setup.lo.x ≤ x0 ∧ x1 ≤ r.setup.hi.x ∧ r.setup.lo.z = min zmin0 zmin1 ∧ r.setup.hi.z = max zmax0 zmax1 := by
  obtain ⟨sc, ss, st, sv, c, q, t, v, f1, f2, f3, f4, h1, h2, h3, h4, h⟩ := trNew_parts h
  obtain ⟨hlen, e1, e2, e3, v', hn⟩ := runOf_ok h
  obtain ⟨g1, g2, g3, g4, g5, g6, g7, g8⟩ := newRun_fields hn
  obtain ⟨w1, w2, -, -, w3, w4, -⟩ := C100_volume _ _ _ _ hn
  obtain ⟨c0, -, -, -, -, -, -, -, c4, c5, c6, c7, -, c9, ⟨n2, m2, c10⟩, c11, ⟨d, md, c12⟩, cl⟩ := (C43_control _ _).1 h1
  obtain ⟨q1, q2, q3, q4⟩ := (C43_sequence _ _ _).1 h2
  obtain ⟨t0, t1, t2, t3, t4, t5, t6, t7, t8, -⟩ := (C43_track _ _).1 h3
  obtain ⟨⟨xa, xb, ex, x0, x1⟩, ⟨ma, mb, em, m0, m1⟩, ⟨ya, yb, ey, y0, y1⟩, -⟩ := (C43_volume _ _).1 h4
  refine ⟨sc, ss, st, sv, c.numCams.toNat, f1, f2, f3, f4, ?_, ?_, ?_, g1, hlen, g4, xa, xb, ma, mb, ya, yb, ?_, ?_, ?_, ?_, ?_⟩
  · rw [g3, g2]
    refine ⟨⟨_, c0, rfl⟩, ⟨_, c4, rfl⟩, ⟨_, c5, rfl⟩, ⟨_, c6, rfl⟩, ⟨_, c7, rfl⟩, ⟨_, c9, rfl⟩, ?_, ⟨_, c11, rfl⟩⟩
    exact ⟨n2, d, by simp [mmOf, m2], by simp [mmOf, md], ⟨_, c10, rfl⟩, ⟨_, c12, rfl⟩, by simp [mmOf, cl]⟩
  · rw [e1, e2, e3]
    exact ⟨q1, q2, q3, q4⟩
  · rw [g5, g6, g7, g8]
    exact ⟨⟨⟨_, t0, rfl⟩, ⟨_, t1, rfl⟩⟩, ⟨⟨_, t2, rfl⟩, ⟨_, t3, rfl⟩⟩, ⟨⟨_, t4, rfl⟩, ⟨_, t5, rfl⟩⟩, ⟨_, t6, rfl⟩, ⟨_, t7, rfl⟩,
      _, t8, by simp⟩
  · exact ⟨⟨⟨_, x0, rfl⟩, ⟨_, x1, rfl⟩⟩, ⟨⟨_, m0, rfl⟩, ⟨_, m1, rfl⟩⟩, ⟨_, y0, rfl⟩, ⟨_, y1, rfl⟩⟩
  · simpa [volOf, ex] using w1
  · simpa [volOf, ex] using w2
  · simpa [volOf, em] using w3
  · simpa [volOf, ey] using w4

/-- C119: the files are not changed and the parameters are read anew, so that a second call gives the same run, also with more
calibrations than cameras. -/
theorem C119_spare_calibrations (fs : FS) (n : ParNames) (cals more : List (Cam × LUT)) (tol : ℝ) (r : FileRun)
    (h : trNew fs n cals tol = .ok r) : trNew fs n (cals ++ more) tol = .ok r := by
  obtain ⟨sc, ss, st, sv, c, q, t, v, f1, f2, f3, f4, h1, h2, h3, h4, h⟩ := trNew_parts h
  have hlen := (runOf_ok h).1
  have e : runOf c q t v (cals ++ more) tol = .ok r := by
    rw [← h]
    unfold runOf
    rw [if_neg (by simp; omega), if_neg (by omega), List.take_append_of_le_length hlen]
  simp only [trNew, readControlParFile, readSequenceParFile, readTrackParFile, readVolumeParFile, FS.read, f1, f2, f3, f4, bind,
    Except.bind, h1, h2, h3, h4, e]

/-- C119: a missing file is an exception, whatever else there is: an IOError for the control file; for the others, if the files
that are read before them are fine, an IOError, but a TypeError for the tracking file (C43). Too few calibrations raise as well. -/
theorem C119_missing (fs : FS) (n : ParNames) (cals : List (Cam × LUT)) (tol : ℝ) :
    (fs n.ctrl = none → trNew fs n cals tol = .error .ioError) ∧
    ((fs n.seq = none ∨ fs n.track = none ∨ fs n.vol = none) → ∃ e, trNew fs n cals tol = .error e) ∧
    (∀ sc (k : ℤ), fs n.ctrl = some sc → IntOn sc 0 k → (cals.length : ℤ) < k → ∃ e, trNew fs n cals tol = .error e) ∧
    (∀ sc c ss q, fs n.ctrl = some sc → readControlPar sc = .ok c → fs n.seq = some ss → readSequencePar ss c.numCams.toNat = .ok q →
      fs n.track = none → trNew fs n cals tol = .error .typeError) := by
  refine ⟨fun h => ?_, fun h => ?_, fun sc k f hk hc => ?_, fun sc c ss q f1 h1 f2 h2 f3 => ?_⟩
  · simp only [trNew, readControlParFile, FS.read, h, bind, Except.bind]
  · cases e : trNew fs n cals tol with
    | error e' => exact ⟨e', rfl⟩
    | ok r =>
      obtain ⟨sc, ss, st, sv, c, q, t, v, f1, f2, f3, f4, -⟩ := trNew_parts e
      rw [f2, f3, f4] at h
      simp at h
  · cases e : trNew fs n cals tol with
    | error e' => exact ⟨e', rfl⟩
    | ok r =>
      obtain ⟨sc', ss, st, sv, c, q, t, v, f1, f2, f3, f4, h1, h2, h3, h4, h⟩ := trNew_parts e
      rw [f] at f1
      cases f1
      have hlen := (runOf_ok h).1
      have h0 := ((C43_control _ _).1 h1).1
      unfold IntOn at hk h0
      rw [hk] at h0
      have := Except.ok.inj h0
      omega
  · simp only [trNew, readControlParFile, readSequenceParFile, readTrackParFile, FS.read, f1, f2, f3, bind, Except.bind, h1, h2]

/-! ### The run of `one_run`, from files -/

/-- A disk with the four files. -/
def oneFiles : FS := fun name =>
  if name = ['c'] then some (exLines ["1", "img", "cal", "1", "0", "1", "0", "6", "1.0", "1.0", "0", "1", "1", "1", "1"])
  else if name = ['s'] then some (exLines ["img/cam.%d", "1", "5"])
  else if name = ['t'] then some (exLines ["-2", "2", "-2", "2", "-2", "2", "100", "1", "0"])
  else if name = ['v'] then some (exLines ["-1", "-9", "0", "1", "-10", "0", "0.02", "0.02", "0.01", "0.3", "33", "0.05"])
  else none

theorem one_control : readControlPar (exLines ["1", "img", "cal", "1", "0", "1", "0", "6", "1.0", "1.0", "0", "1", "1", "1", "1"]) =
    .ok ⟨1, [['i', 'm', 'g']], [['c', 'a', 'l']], 1, 0, 1, 0, 6, 1, 1, 0, ⟨1, 1, [1], [1], 1⟩⟩ := by decide +kernel

theorem one_sequence : readSequencePar (exLines ["img/cam.%d", "1", "5"]) 1 =
    .ok ⟨["img/cam.%d".toList], 1, 5⟩ := by decide +kernel

theorem one_track : readTrackPar (exLines ["-2", "2", "-2", "2", "-2", "2", "100", "1", "0"]) =
    .ok ⟨-2, 2, -2, 2, -2, 2, 100, 1, 0, 0, 0, 0, 0⟩ := by decide +kernel

theorem one_volume : readVolumePar (exLines ["-1", "-9", "0", "1", "-10", "0", "0.02", "0.02", "0.01", "0.3", "33", "0.05"]) =
    .ok ⟨[-1, 1], [-9, -10], [0, 0], 1 / 100, 1 / 50, 1 / 50, 3 / 10, 1 / 20, 33⟩ := by decide +kernel

/-- The run is made, for frames 1 to 5, and tracks from -10 to 0 in depth. -/
example : ∃ r, trNew oneFiles ⟨['s'], ['t'], ['v'], ['c']⟩ [(volCal, emptyLUT)] 0.001 = .ok r ∧ r.first = 1 ∧ r.last = 5 ∧
    r.setup.lo.z = -10 ∧ r.setup.hi.z = 0 := by
  obtain ⟨s, h, hh, hl⟩ := one_run
  have hv : volOf ⟨[-1, 1], [-9, -10], [0, 0], 1 / 100, 1 / 50, 1 / 50, 3 / 10, 1 / 20, 33⟩ = oneVol := by
    simp [volOf, oneVol]
  have ha : (⟨[(volCal, emptyLUT)], mmOf ⟨1, 1, [1], [1], 1⟩, ⟨0, 6, (1 : ℚ), (1 : ℚ)⟩, 0.001,
      velOf ⟨-2, 2, -2, 2, -2, 2, 100, 1, 0, 0, 0, 0, 0⟩, (1 : ℚ), (100 : ℚ), false⟩ : RunArgs) = oneArgs := by
    simp [oneArgs, mmOf, velOf]
  have hr : runOf ⟨1, [['i', 'm', 'g']], [['c', 'a', 'l']], 1, 0, 1, 0, 6, 1, 1, 0, ⟨1, 1, [1], [1], 1⟩⟩ ⟨["img/cam.%d".toList], 1, 5⟩
      ⟨-2, 2, -2, 2, -2, 2, 100, 1, 0, 0, 0, 0, 0⟩ ⟨[-1, 1], [-9, -10], [0, 0], 1 / 100, 1 / 50, 1 / 50, 3 / 10, 1 / 20, 33⟩
      [(volCal, emptyLUT)] 0.001 = .ok ⟨s, 1, 5, ["img/cam.%d".toList]⟩ := by
    have : newRun ⟨[(volCal, emptyLUT)], mmOf ⟨1, 1, [1], [1], 1⟩, ⟨0, 6, (1 : ℚ), (1 : ℚ)⟩, 0.001,
      velOf ⟨-2, 2, -2, 2, -2, 2, 100, 1, 0, 0, 0, 0, 0⟩, (1 : ℚ), (100 : ℚ), false⟩
        (volOf ⟨[-1, 1], [-9, -10], [0, 0], 1 / 100, 1 / 50, 1 / 50, 3 / 10, 1 / 20, 33⟩) = some (s, ⟨-1, 1, -10, -10, 0, 0⟩) := by
      rw [hv, ha]; exact h
    simp only [runOf, List.length_singleton, Int.toNat_one, lt_irrefl, if_false]
    simp only [imgOf, List.take_succ_cons, List.take_zero, ne_eq, not_true_eq_false, decide_false, Int.toNat_zero,
      show (6 : ℤ).toNat = 6 from rfl, this, orRaise, bind, Except.bind]
  refine ⟨⟨s, 1, 5, ["img/cam.%d".toList]⟩, ?_, rfl, rfl, by rw [hl], by rw [hh]⟩
  have e1 : oneFiles ['c'] = some (exLines ["1", "img", "cal", "1", "0", "1", "0", "6", "1.0", "1.0", "0", "1", "1", "1", "1"]) := rfl
  have e2 : oneFiles ['s'] = some (exLines ["img/cam.%d", "1", "5"]) := rfl
  have e3 : oneFiles ['t'] = some (exLines ["-2", "2", "-2", "2", "-2", "2", "100", "1", "0"]) := rfl
  have e4 : oneFiles ['v'] = some (exLines ["-1", "-9", "0", "1", "-10", "0", "0.02", "0.02", "0.01", "0.3", "33", "0.05"]) := rfl
  simp only [trNew, readControlParFile, readSequenceParFile, readTrackParFile, readVolumeParFile, FS.read, e1, e2, e3, e4, bind,
    Except.bind, one_control, Int.toNat_one, one_sequence, one_track, one_volume, hr]

end Verif.Track
