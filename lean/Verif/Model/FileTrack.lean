/-
The tracker on files: `trackcorr_c_loop` (openptv_python/track.py:781-1095) with the geometry of the calibrations
(`Setup.tracker`), on frames that are read from and written to files (tracking_frame_buf.py:618-689).
-/
import Verif.Model.StoreRun
import Verif.Model.Tracker
import Mathlib.Data.Real.Basic
import Mathlib.Algebra.Order.Floor.Ring
import Mathlib.Algebra.Ring.Parity

namespace Verif.Track
open Verif.Geo

/-- A frame in memory: positions are real numbers; the image data are those of the files. -/
abbrev RealFrame (c : ℕ) := Frame V3 ℝ (CamData c)

open Classical in
/-- The last digit of `%.3f`: the multiple of 1/1000 nearest to `x`, of two nearest ones the even one. -/
noncomputable def thousandths (x : ℝ) : ℤ :=
  if 1000 * x - ⌊1000 * x⌋ < 1 / 2 then ⌊1000 * x⌋
  else if 1 / 2 < 1000 * x - ⌊1000 * x⌋ then ⌊1000 * x⌋ + 1
  else if Even ⌊1000 * x⌋ then ⌊1000 * x⌋ else ⌊1000 * x⌋ + 1

/-- A position as `write_path_frame` prints it (tracking_frame_buf.py:853-876, format `.3f`). -/
noncomputable def printed (X : V3) : ℚ × ℚ × ℚ :=
  ((thousandths X.x : ℚ) / 1000, (thousandths X.y : ℚ) / 1000, (thousandths X.z : ℚ) / 1000)

/-- A particle for the files. -/
noncomputable def printPart (p : Part V3 ℝ) : Part (ℚ × ℚ × ℚ) ℝ := ⟨printed p.x, p.prev, p.next, p.cands, p.final⟩

/-- A particle as it was read. -/
noncomputable def readPart (p : Part (ℚ × ℚ × ℚ) ℝ) : Part V3 ℝ := ⟨⟨p.x.1, p.x.2.1, p.x.2.2⟩, p.prev, p.next, p.cands, p.final⟩

/-- The frame that is written, with rounded positions. -/
noncomputable def toMem {c : ℕ} (f : RealFrame c) : MemFrame ℝ c := ⟨f.no, f.parts.map printPart, f.img⟩

/-- The frame that was read. -/
noncomputable def ofMem {c : ℕ} (f : MemFrame ℝ c) : RealFrame c := ⟨f.no, f.parts.map readPart, f.img⟩

/-- tracking_frame_buf.py:618-636, 669-689: frames on the files. -/
noncomputable def realStore (c : ℕ) (b : IO.Bases) (links : Bool) : Store Text.FS (RealFrame c) where
  read fs n f := do
    let m ← (memStore ℝ c b links).read fs n (toMem f)
    .ok (ofMem m)
  write fs n f := (memStore ℝ c b links).write fs n (toMem f)

/-- A target as the searches see it. Target numbers below -1, which no part of the package writes, are taken as -1. -/
noncomputable def seenTarget (t : IO.Target) : Search.Tgt ℝ := ⟨t.x, t.y, max (-1) t.tnr⟩

/-- The image data of a frame as the searches see them (tracking_frame_buf.py:48-53: a correspondence has four places). -/
noncomputable def seenImg {c : ℕ} (d : CamData c) : Img ℝ where
  targets := d.targets.map fun ts => ts.map seenTarget
  corr := d.corr.map fun r => ⟨r.nr, [r.p0, r.p1, r.p2, r.p3]⟩
  ok := by
    intro ts hts t ht
    simp only [List.mem_map] at hts
    obtain ⟨us, -, rfl⟩ := hts
    simp only [List.mem_map] at ht
    obtain ⟨u, -, rfl⟩ := ht
    exact le_max_left _ _

/-- A frame as the searches see it. -/
noncomputable def RealFrame.seen {c : ℕ} (f : RealFrame c) : Frame V3 ℝ (Img ℝ) := ⟨f.no, f.parts, seenImg f.img⟩

/-- The geometry of the step for frames with other image data, of which the searches see a part. Adding (`addImg`) is not
included: this is for runs with `add = False`, which never call `add_particle` (track.py:966, 999). -/
def Geo.onImages {P J C I I' D : Type} (g : Geo P J C I D) (see : I' → I) : Geo P J C I' D where
  predict := g.predict
  predict2 := g.predict2
  sub := g.sub
  dist := g.dist
  proj := g.proj
  projOwn := fun i => g.projOwn (see i)
  search := fun x j i => g.search x j (see i)
  assess := fun x i => g.assess x (see i)
  pointPos := g.pointPos
  inVolume := g.inVolume
  inBounds := g.inBounds
  angleAcc := g.angleAcc
  addImg := fun _ _ _ => .error .other
  dacc := g.dacc
  dangle := g.dangle
  lmax := g.lmax
  add := g.add

/-- track.py:763-1108: a forward run on files with `add = False`. -/
noncomputable def fileForwardRun (s : Setup) (c : ℕ) (b : IO.Bases) (first last : Int) (fs : Text.FS) (buf : List (RealFrame c)) :
    Text.FS × Py (Run (RealFrame c)) :=
  sForwardRun (realStore c b false) (trackBuf (s.tracker.onImages seenImg)) first last fs buf

end Verif.Track
