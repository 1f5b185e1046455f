/-
Vocabulary for C109 and C110, independent of how the model computes.
-/
import Verif.Model.FullCorr
import Verif.Spec.Search
import Verif.Spec.Correspondences
import Verif.Spec.Ray

namespace Verif.FullCorr

open Verif.Geo Verif.Geo.V3 Verif.Geo.Spec Verif.Search Verif.Search.Spec Verif.Corr Verif.Corr.Spec

/-- Air everywhere. -/
structure Air (mm : MM) : Prop where
  n1 : mm.n1 = 1
  lay : mm.nlay = 1
  n2 : ∃ ns, mm.n2 = 1 :: ns
  n3 : mm.n3 = 1
  d : ∃ d, mm.d = [d]

/-- The data a user hands over: coordinates sorted by x, naming different existing targets, one per target, fewer than 8190; no
negative size; as many tnr, sizes and positions as targets. -/
structure DataFine (d : CamData) : Prop where
  sorted : (d.crd.map Search.Coord.x).Pairwise (· ≤ ·)
  few : d.crd.length < 8190
  some : 0 < d.crd.length
  names : ∀ q ∈ d.crd, q.pnr < d.pix.length
  once : (d.crd.map Search.Coord.pnr).Nodup
  sizes : ∀ s ∈ d.pix, 0 ≤ s.n ∧ 0 ≤ s.nx ∧ 0 ≤ s.ny ∧ 0 ≤ s.sumg
  pixs : d.pix.length = d.crd.length
  tnrs : d.tnr.length = d.crd.length
  xys : d.xy.length = d.crd.length

/-- The camera sees the particle through the window: it is in front of the camera and behind the glass, and within the depth limits that belong to
the point `X` where the line of sight crosses the glass. -/
structure Looks (c : Cam) (v : Geo.VPar) (P X : V3) : Prop where
  rot : ∃ omega phi kappa, c.dm = rotationMatrix omega phi kappa
  cc : 0 < c.cc
  glass : c.glass ≠ 0
  front : dot c.dm.c2 (P - c.pos) < 0
  behind : (P - c.pos).dot c.glass < 0
  deep : P.z ≠ c.pos.z
  line : OnLine c.pos (P - c.pos) X
  cross : X.dot c.glass = c.glass.dot c.glass
  volume : zMinAt v X.x ≤ P.z ∧ P.z ≤ zMaxAt v X.x

/-- The part of the line of sight of camera `a` to `P` that lies within the limits is in front of camera `b`. -/
def Facing (a b : Cam) (v : Geo.VPar) (P X : V3) : Prop :=
  ∀ M, OnLine a.pos (P - a.pos) M → zMinAt v X.x ≤ M.z → M.z ≤ zMaxAt v X.x → dot b.dm.c2 (M - b.pos) < 0

/-- Two targets look alike, by the criteria of the volume parameters. -/
def Alike (v : Search.VPar) (s t : Shape) : Prop :=
  v.cn ≤ ratio s.n t.n ∧ v.cnx ≤ ratio s.nx t.nx ∧ v.cny ≤ ratio s.ny t.ny ∧ v.csumg < ratio s.sumg t.sumg

/-- Coordinate number `k` of the camera is the exact flat image of `P`, inside the sensor, and its target has the sizes `s`. -/
structure Detected (p : Pars) (d : CamData) (P : V3) (k : ℕ) (s : Shape) : Prop where
  at_ : ∃ q, d.crd[k]? = some q ∧ d.pix[q.pnr]? = some s ∧ flatImageCoord P d.cal d.lut p.mm = some (q.x, q.y) ∧
    (sensorOf p.ip d.cal).xmin < q.x ∧ q.x < (sensorOf p.ip d.cal).xmax ∧
    (sensorOf p.ip d.cal).ymin < q.y ∧ q.y < (sensorOf p.ip d.cal).ymax

/-- The end points of the epipolar line of coordinate `i` of camera `a` in camera `b`. -/
def Epi (p : Pars) (a b : CamData) (i : ℕ) (e : (ℝ × ℝ) × (ℝ × ℝ)) : Prop :=
  ∃ q, a.crd[i]? = some q ∧ epiMM q.x q.y a.cal b.cal b.lut p.mm p.vol = some e

/-- Coordinate `j` of camera `b` is exactly on the epipolar line of coordinate `i` of camera `a` (a line parallel to the y axis is
tilted a little before). -/
def OnEpi (p : Pars) (a b : CamData) (i j : ℕ) : Prop :=
  ∃ e q, Epi p a b i e ∧ b.crd[j]? = some q ∧ ∃ τ, distToLinePt e.1.1 e.1.2 (tilt e.1.1 e.2.1) e.2.2 q.x q.y τ = 0

/-- At most 40 coordinates of camera `b` fit coordinate `i` of camera `a`. -/
def NotCrowded (p : Pars) (a b : CamData) (i : ℕ) : Prop :=
  ∀ e q s, Epi p a b i e → a.crd[i]? = some q → a.pix[q.pnr]? = some s → ∀ l : List ℕ, l.Nodup →
    (∀ j ∈ l, Acceptable p.crit s b.crd b.pix e.1.1 e.1.2 e.2.1 e.2.2 j) → l.length ≤ 40

/-- `four_camera_matching` printed "Overflow in correspondences.": it found as many consistent quadruplets as the scratch array has
room for. -/
def Overflow (p : Pars) (cams : Fin 4 → CamData) : Prop :=
  4 * NMAX ≤ (fourCameraMatching (adjacency p cams) (numTargets cams 0) p.corrmin (4 * NMAX)).length

/-- A particle that all four cameras see, exactly and not in a crowd. -/
structure Seen (p : Pars) (cams : Fin 4 → CamData) (P : V3) (X : Fin 4 → V3) (k : Fin 4 → ℕ) (s : Fin 4 → Shape) : Prop where
  looks : ∀ c, Looks (cams c).cal p.vol P (X c)
  facing : ∀ c1 c2, c1 < c2 → Facing (cams c1).cal (cams c2).cal p.vol P (X c1)
  detected : ∀ c, Detected p (cams c) P (k c) (s c)
  alike : ∀ c1 c2, c1 < c2 → Alike p.crit (s c1) (s c2)
  slanted : ∀ c1 c2, c1 < c2 → ∀ e, Epi p (cams c1) (cams c2) (k c1) e → e.1.1 ≠ e.2.1
  sparse : ∀ c1 c2, c1 < c2 → NotCrowded p (cams c1) (cams c2) (k c1)

/-- A particle that the cameras of `S` see, exactly and not in a crowd. -/
structure SeenBy (S : Set (Fin 4)) (p : Pars) (cams : Fin 4 → CamData) (P : V3) (X : Fin 4 → V3) (k : Fin 4 → ℕ)
    (s : Fin 4 → Shape) : Prop where
  looks : ∀ c ∈ S, Looks (cams c).cal p.vol P (X c)
  facing : ∀ c1 ∈ S, ∀ c2 ∈ S, c1 < c2 → Facing (cams c1).cal (cams c2).cal p.vol P (X c1)
  detected : ∀ c ∈ S, Detected p (cams c) P (k c) (s c)
  alike : ∀ c1 ∈ S, ∀ c2 ∈ S, c1 < c2 → Alike p.crit (s c1) (s c2)
  slanted : ∀ c1 ∈ S, ∀ c2 ∈ S, c1 < c2 → ∀ e, Epi p (cams c1) (cams c2) (k c1) e → e.1.1 ≠ e.2.1
  sparse : ∀ c1 ∈ S, ∀ c2 ∈ S, c1 < c2 → NotCrowded p (cams c1) (cams c2) (k c1)

/-- Coordinate `j` of camera `b` fits coordinate `i` of camera `a`: near its epipolar line, and alike. -/
def Fits (p : Pars) (a b : CamData) (i j : ℕ) : Prop :=
  ∃ e q s, Epi p a b i e ∧ a.crd[i]? = some q ∧ a.pix[q.pnr]? = some s ∧
    Acceptable p.crit s b.crd b.pix e.1.1 e.1.2 e.2.1 e.2.2 j

/-- The targets `k c` of the cameras of `S` fit one another only: no target outside the group fits one of them. -/
def FitOnly (S : Set (Fin 4)) (p : Pars) (cams : Fin 4 → CamData) (k : Fin 4 → ℕ) : Prop :=
  ∀ c ∈ S, ∀ (d : Fin 4) (m : ℕ), (c < d → Fits p (cams c) (cams d) (k c) m → d ∈ S ∧ m = k d) ∧
    (d < c → Fits p (cams d) (cams c) m (k c) → d ∈ S ∧ m = k d)

/-- There may be as many triplets of linked targets as the scratch array has room for. -/
def ManyTriplets (p : Pars) (cams : Fin 4 → CamData) : Prop :=
  ∃ l, threeCameraMatching NMAX (adjacency p cams) (numTargets cams) p.corrmin (4 * NMAX) (Usage.empty NMAX) = .ok l ∧
    4 * NMAX ≤ l.length

/-- All that is listed for a camera: quadruplets, triplets, pairs. -/
def listed (o : Out) (c : Fin 4) : List (Int × (ℝ × ℝ)) := o.quads c ++ o.triplets c ++ o.pairs c

/-- The cameras that are not part of entry `j` of the group: their identifier is -1. -/
def Absent (g : Group) (j : ℕ) (c : Fin 4) : Prop := ∃ xy, (g c)[j]? = some (-1, xy)

/-- What a user expects of the result of `py_correspondences`. -/
structure Distributed (cams : Fin 4 → CamData) (o : Out) : Prop where
  /-- the last result is the number of entries, for every camera -/
  total : ∀ c, (listed o c).length = o.total
  /-- an entry names a target and gives its pixel position, or says that the camera is not part of it -/
  entry : ∀ c, ∀ e ∈ listed o c, e = (-1, (-999, -999)) ∨ ∃ (m : ℕ) (xy : ℝ × ℝ), (cams c).xy[m]? = some xy ∧ e = ((m : Int), xy)
  /-- four cameras, three cameras, two cameras -/
  four : ∀ j < (o.quads 0).length, {c | Absent o.quads j c}.ncard = 0
  three : ∀ j < (o.triplets 0).length, {c | Absent o.triplets j c}.ncard = 1
  two : ∀ j < (o.pairs 0).length, {c | Absent o.pairs j c}.ncard = 2
  sizes : ∀ c, (o.quads c).length = (o.quads 0).length ∧ (o.triplets c).length = (o.triplets 0).length ∧
    (o.pairs c).length = (o.pairs 0).length
  /-- no target is named twice -/
  once : ∀ c (i j m : ℕ) (xy xy' : ℝ × ℝ), (listed o c)[i]? = some ((m : Int), xy) → (listed o c)[j]? = some ((m : Int), xy') → i = j
  /-- a target that is named has the number of the entry as its tnr, another keeps its tnr -/
  number : ∀ c (j m : ℕ) (xy : ℝ × ℝ), (listed o c)[j]? = some ((m : Int), xy) → (o.tnr c)[m]? = some (j : Int)
  keep : ∀ c (m : ℕ), (∀ xy, ((m : Int), xy) ∉ listed o c) → (o.tnr c)[m]? = (cams c).tnr[m]?

end Verif.FullCorr
