/-
Model of the forward and backward runs (openptv_python/track.py:763-778, 781-1095, 1099-1108, 1111-1330) on files that
the run itself changes: each read sees the files as they are at that moment, and an exception stops the run with the
files as they are. (`Model/TrackStep.lean` has the same runs with a fixed content of the disk.)
-/
import Verif.Model.TrackStep
import Verif.Model.FrameIO

namespace Verif.Track

/-- A store of frames: `read s n f` is what reading frame `n` puts into the frame object `f`, or the exception;
`write s n f` is the state after writing `f` as frame `n`, and the return value or the exception. -/
structure Store (S F : Type) where
  read : S → Int → F → Py F
  write : S → Int → F → S × Py Bool

/-- Sequence of statements: an exception skips the rest, the state stays. -/
def andThen {S A B : Type} (o : S × Py A) (k : S → A → S × Py B) : S × Py B :=
  match o with
  | (s, .ok a) => k s a
  | (s, .error e) => (s, .error e)

section
variable {S F : Type}

/-- tracking_frame_buf.py:618-636 `read_frame_at_end`: reads into the last object of the buffer. -/
def sRead (st : Store S F) (n : Int) (s : S) (r : Run F) : S × Py (Run F) :=
  match r.buf.getLast? with
  | none => (s, .error .indexError)
  | some f =>
    match st.read s n f with
    | .error e => (s, .error e)
    | .ok f' => (s, .ok ⟨r.buf.dropLast ++ [f'], r.log ++ [.read n]⟩)

/-- tracking_frame_buf.py:669-689 `write_frame_from_start`; the callers ignore the return value. -/
def sWrite (st : Store S F) (n : Int) (s : S) (r : Run F) : S × Py (Run F) :=
  match r.buf[0]? with
  | none => (s, .error .indexError)
  | some f =>
    match st.write s n f with
    | (s', .error e) => (s', .error e)
    | (s', .ok _) => (s', .ok ⟨r.buf, r.log ++ [.write n f]⟩)

/-- track.py:774-776, 1131-1133: read the frames into the buffer, rotating it. -/
def sPrime (st : Store S F) : List Int → S → Run F → S × Py (Run F)
  | [], s, r => (s, .ok r)
  | n :: ns, s, r => andThen (sRead st n s r) fun s' r' => sPrime st ns s' r'.next

/-- track.py:763-778 `track_forward_start`. -/
def sForwardStart (st : Store S F) (first : Int) (s : S) (r : Run F) : S × Py (Run F) :=
  andThen (sPrime st [first, first + 1, first + 2] s r) fun s' r' => (s', .ok r'.prev)

/-- track.py:781-1095 `trackcorr_c_loop`. -/
def sForwardStep (st : Store S F) (process : List F → Py (List F)) (last step : Int) (s : S) (r : Run F) :
    S × Py (Run F) :=
  match process r.buf with
  | .error e => (s, .error e)
  | .ok buf =>
    andThen (sWrite st step s (Run.next ⟨buf, r.log ++ [.step step r.buf]⟩)) fun s' r' =>
      if step < last - 2 then sRead st (step + 3) s' r' else (s', .ok r')

/-- The steps `a, a+1, ..` of a run, `k` of them. -/
def sForwardSteps (st : Store S F) (process : List F → Py (List F)) (last : Int) :
    Nat → Int → S → Run F → S × Py (Run F)
  | 0, _, s, r => (s, .ok r)
  | k + 1, a, s, r => andThen (sForwardStep st process last a s r) fun s' r' =>
      sForwardSteps st process last k (a + 1) s' r'

/-- track.py:1099-1108 `trackcorr_c_finish`. -/
def sForwardFinish (st : Store S F) (first last step : Int) (s : S) (r : Run F) : S × Py (Run F) :=
  if last - first = 0 then (s, .error .zeroDivision) else sWrite st step s r.next

/-- A full forward run (tests/test_tracking_run.py:134-142). -/
def sForwardRun (st : Store S F) (process : List F → Py (List F)) (first last : Int) (s : S) (buf0 : List F) :
    S × Py (Run F) :=
  andThen (sForwardStart st first s ⟨buf0, []⟩) fun s' r' =>
    andThen (sForwardSteps st process last (last - first).toNat first s' r') fun s'' r'' =>
      sForwardFinish st first last last s'' r''

/-- track.py:1131-1135. -/
def sBackStart (st : Store S F) (last : Int) (s : S) (r : Run F) : S × Py (Run F) :=
  andThen (sPrime st [last, last - 1, last - 2, last - 3] s r) fun s' r' => (s', .ok r'.prev)

/-- track.py:1138-1307: one iteration of the backward sequence loop. -/
def sBackStep (st : Store S F) (process : List F → Py (List F)) (first step : Int) (s : S) (r : Run F) :
    S × Py (Run F) :=
  match process r.buf with
  | .error e => (s, .error e)
  | .ok buf =>
    andThen (sWrite st step s (Run.next ⟨buf, r.log ++ [.step step r.buf]⟩)) fun s' r' =>
      if step > first + 2 then sRead st (step - 3) s' r' else (s', .ok r')

/-- `k` backward steps from step `a` down. -/
def sBackSteps (st : Store S F) (process : List F → Py (List F)) (first : Int) :
    Nat → Int → S → Run F → S × Py (Run F)
  | 0, _, s, r => (s, .ok r)
  | k + 1, a, s, r => andThen (sBackStep st process first a s r) fun s' r' =>
      sBackSteps st process first k (a - 1) s' r'

/-- track.py:1316-1328: the averages and the last write, with the loop variable as the loops left it. -/
def sBackFinish (st : Store S F) (first last : Int) (s : S) (r : Run F) : S × Py (Run F) :=
  if last - first - 1 = 0 then (s, .error .zeroDivision)
  else sWrite st (if first + 1 ≤ last - 1 then first + 1 else last - 3) s r.next

/-- track.py:1111-1330 `trackback_c`. -/
def sBackRun (st : Store S F) (process : List F → Py (List F)) (first last : Int) (s : S) (buf0 : List F) :
    S × Py (Run F) :=
  andThen (sBackStart st last s ⟨buf0, []⟩) fun s' r' =>
    andThen (sBackSteps st process first (last - 1 - first).toNat (last - 1) s' r') fun s'' r'' =>
      sBackFinish st first last s'' r''

end

open _root_.Verif.IO in
/-- tracking_frame_buf.py:618-636, 669-689: the files as a store; `links` is `read_links`. (`Frame.read` never returns
False, so that the IOError of 635-636 is never raised.) -/
def fileStore (b : Bases) (links : Bool) : Store Text.FS DFrame where
  read fs n f :=
    match (if links then f.read fs b.corres b.linkage b.prio b.target n
      else f.read fs b.corres [] [] b.target n) with
    | (_, .error e) => .error e
    | (f', .ok true) => .ok f'
    | (_, .ok false) => .error .ioError
  write fs n f := f.write fs b.corres b.linkage b.prio b.target n

/-! ### Frames in memory and their files -/

/-- A row of `Corres` (tracking_frame_buf.py:48-53), with the priority of the particle (which tracking does not read). -/
structure CorrRow where
  nr : ℤ
  p0 : ℤ
  p1 : ℤ
  p2 : ℤ
  p3 : ℤ
  prio : ℤ
  deriving DecidableEq

/-- The image data of a frame object for `c` cameras: targets (`num_targets` is their number,
tracking_frame_buf.py:359-365) and correspondences. -/
structure CamData (c : ℕ) where
  targets : List (List IO.Target)
  corr : List CorrRow
  cams : targets.length = c

/-- A frame in memory. -/
abbrev MemFrame (D : Type) (c : ℕ) := Frame (ℚ × ℚ × ℚ) D (CamData c)

/-- tracking_frame_buf.py:845-872: particle and correspondence of the same index make a row of the files. -/
def toRow {D : Type} (p : Part (ℚ × ℚ × ℚ) D) (r : CorrRow) : IO.Particle :=
  ⟨r.nr, r.p0, r.p1, r.p2, r.p3, p.x.1, p.x.2.1, p.x.2.2, p.prev, p.next, r.prio⟩

/-- tracking_frame_buf.py:384-396: what `Frame.write` writes of a frame. -/
def toDisk {D : Type} {c : ℕ} (f : MemFrame D c) : IO.DFrame :=
  ⟨List.zipWith toRow f.parts f.img.corr, f.parts.length, f.img.targets, f.img.targets.map List.length⟩

/-- tracking_frame_buf.py:784-791: a row of the files as a particle; `inlist` is 0 and `finaldecis` 1000000. -/
def ofRow {D : Type} [OfNat D 1000000] (p : IO.Particle) : Part (ℚ × ℚ × ℚ) D :=
  ⟨(p.x, p.y, p.z), p.prev, p.next, [], 1000000⟩

/-- The correspondence of a row. -/
def corrOf (p : IO.Particle) : CorrRow := ⟨p.nr, p.p0, p.p1, p.p2, p.p3, p.prio⟩

/-- tracking_frame_buf.py:348-365: the frame that was read, if it has `c` cameras (it always has, `Frame.read` keeps the
number of cameras). -/
def ofDisk {D : Type} [OfNat D 1000000] (c : ℕ) (n : Int) (d : IO.DFrame) : Py (MemFrame D c) :=
  if h : d.targets.length = c then .ok ⟨n, d.parts.map ofRow, ⟨d.targets, d.parts.map corrOf, h⟩⟩
  else .error .other

/-- tracking_frame_buf.py:618-636, 669-689: frames in memory on the files. -/
def memStore (D : Type) [OfNat D 1000000] (c : ℕ) (b : IO.Bases) (links : Bool) : Store Text.FS (MemFrame D c) where
  read fs n f := do
    let d ← (fileStore b links).read fs n (toDisk f)
    ofDisk c n d
  write fs n f := (fileStore b links).write fs n (toDisk f)

end Verif.Track
