/-
Model of openptv_python/orientation.py, part 1: triangulation and the dumbbell measure.
-/
import Verif.Model.Py
import Verif.Model.RayTracing

namespace Verif.Geo
open V3

/-- constants.py:7 `COORD_UNUSED`. -/
noncomputable def coordUnused : ℝ := -1e10

/-- A ray: vertex and direction. -/
abbrev Ray := V3 × V3

/-- orientation.py:30-49 `skew_midpoint`. `none` stands for the NaN values numpy produces when the
directions are parallel (`scale = 0`, an array divided by zero). -/
noncomputable def skewMidpoint (r1 r2 : Ray) : Option (ℝ × V3) :=
  let perp := cross r1.2 r2.2
  let scale := dot perp perp
  if scale = 0 then none else
  let sp := r2.1 - r1.1
  let on1 := r1.1 + (r1.2.smul (dot perp (cross sp r2.2))).smul (1 / scale)
  let on2 := r2.1 + (r2.2.smul (dot perp (cross sp r1.2))).smul (1 / scale)
  some (norm (on1 - on2), (on1 + on2).smul 0.5)

/-- The accumulators of `point_position`: `num_used_pairs`, and `dtot`, `point_tot` (`none`: NaN). -/
structure PPAcc where
  n : ℕ
  tot : Option (ℝ × V3)

/-- orientation.py:102-107, one used pair. -/
noncomputable def addPair (a : PPAcc) (r1 r2 : Ray) : PPAcc :=
  ⟨a.n + 1, do
    let t ← a.tot
    let m ← skewMidpoint r1 r2
    some (t.1 + m.1, t.2 + m.2)⟩

/-- orientation.py:99-107, one pass of the inner loop; an unused second camera is skipped. -/
noncomputable def addPairOpt (r : Ray) (a : PPAcc) : Option Ray → PPAcc
  | none => a
  | some q => addPair a r q

/-- orientation.py:94-107, the double loop over camera pairs `cam < pair`; `none` is a camera whose
coordinate is `COORD_UNUSED` (skipped by the `continue`s). -/
noncomputable def pairLoop : List (Option Ray) → PPAcc → PPAcc
  | [], a => a
  | none :: rs, a => pairLoop rs a
  | some r :: rs, a =>
    pairLoop rs (rs.foldl (addPairOpt r) a)

/-- orientation.py:86-91, the ray of one camera. -/
noncomputable def camRay (targets : List (ℝ × ℝ)) (cals : List Cam) (mm : MM) (cam : ℕ) :
    Py (Option Ray) :=
  match pyGet targets cam with
  | .error e => .error e
  | .ok t =>
    if t.1 = coordUnused then .ok none else
    match pyGet cals cam with
    | .error e => .error e
    | .ok c =>
      match rayTracing t.1 t.2 c mm with
      | none => .error .indexError
      | some r => .ok (some r)

/-- orientation.py:86-91 `for cam in range(num_cams)`: the rays of all cameras in order. -/
noncomputable def camRays (targets : List (ℝ × ℝ)) (cals : List Cam) (mm : MM) :
    List ℕ → Py (List (Option Ray))
  | [] => .ok []
  | cam :: cams =>
    match camRay targets cals mm cam with
    | .error e => .error e
    | .ok r =>
      match camRays targets cals mm cams with
      | .error e => .error e
      | .ok rs => .ok (r :: rs)

/-- orientation.py:52-111 `point_position`. `.ok none` is a NaN result. With no used pair,
`dtot /= num_used_pairs` divides a Python float by zero. -/
noncomputable def pointPosition (targets : List (ℝ × ℝ)) (numCams : ℕ) (mm : MM)
    (cals : List Cam) : Py (Option (ℝ × V3)) :=
  match camRays targets cals mm (List.range numCams) with
  | .error e => .error e
  | .ok rays =>
    let a := pairLoop rays ⟨0, some (0, 0)⟩
    if a.n = 0 then .error .zeroDivision
    else .ok (a.tot.map fun t => (t.1 / a.n, t.2.smul (1 / a.n)))

/-- orientation.py:132-135: relative length error of one dumbbell. -/
noncomputable def lenErr (dbLength : ℝ) (p q : V3) : ℝ :=
  let dist := norm (p - q)
  1 - (if dist > dbLength then dbLength / dist else dist / dbLength)

/-- orientation.py:127-135: the loop over the points. `even` holds `res[0]`, the position of the last
even-numbered point; `pts` are the results of `point_position`. Returns `dtot` and `len_err_tot`. -/
noncomputable def dumbbellLoop (dbLength : ℝ) : List (ℝ × V3) → ℝ × ℝ → ℝ × ℝ
  | [], s => s
  | [p], s => (s.1 + p.1, s.2)
  | p :: q :: ps, s =>
    dumbbellLoop dbLength ps (s.1 + p.1 + q.1, s.2 + lenErr dbLength p.2 q.2)

/-- All `point_position` calls of orientation.py:127-128; they do not depend on the rest of the loop. -/
noncomputable def allPositions (targets : List (List (ℝ × ℝ))) (numCams : ℕ) (mm : MM)
    (cals : List Cam) : Py (List (Option (ℝ × V3))) :=
  match targets with
  | [] => .ok []
  | t :: ts =>
    match pointPosition t numCams mm cals with
    | .error e => .error e
    | .ok r =>
      match allPositions ts numCams mm cals with
      | .error e => .error e
      | .ok rs => .ok (r :: rs)

/-- All values of a list are numbers. -/
def allSome {α : Type} : List (Option α) → Option (List α)
  | [] => some []
  | none :: _ => none
  | some a :: l => (allSome l).map (a :: ·)

/-- orientation.py:114-139 `weighted_dumbbell_precision`, for `db_length ≠ 0` or fewer than two
points (a zero length divides by zero in line 134 for coincident points). `.ok none` is NaN. -/
noncomputable def weightedDumbbell (targets : List (List (ℝ × ℝ))) (numCams : ℕ) (mm : MM)
    (cals : List Cam) (dbLength dbWeight : ℝ) : Py (Option ℝ) :=
  match allPositions targets numCams mm cals with
  | .error e => .error e
  | .ok rs =>
    if targets.length = 0 then .error .zeroDivision else
    .ok ((allSome rs).map fun ps =>
      let s := dumbbellLoop dbLength ps (0, 0)
      s.1 / targets.length + dbWeight * s.2 / (0.5 * targets.length))

/-- The value returned as `res` by the batch functions: an array of shape `(n, 3)`, with its rows, or a
single position of shape `(3,)`. NaN positions are `none`; `np.empty` rows are never read here. -/
inductive Batch
  | rows (l : List (Option V3))
  | single (p : Option V3)

/-- orientation.py:1062-1063: the loop; `res` is rebound by every pass. -/
noncomputable def multiLoop (numCams : ℕ) (mm : MM) (cals : List Cam) :
    List (List (ℝ × ℝ)) → Batch → List (Option ℝ) → Py (Batch × List (Option ℝ))
  | [], res, rcm => .ok (res, rcm)
  | t :: ts, _, rcm =>
    match pointPosition t numCams mm cals with
    | .error e => .error e
    | .ok r => multiLoop numCams mm cals ts (.single (r.map Prod.snd)) (rcm ++ [r.map Prod.fst])

/-- orientation.py:1027-1065 `multi_cam_point_positions`. -/
noncomputable def multiCamPointPositions (targets : List (List (ℝ × ℝ))) (numCams : ℕ) (mm : MM)
    (cals : List Cam) : Py (Batch × List (Option ℝ)) :=
  multiLoop numCams mm cals targets (.rows []) []

/-- orientation.py:989-1024 `single_cam_point_positions`: `targ[0]`, `cals[0]` for every point. -/
noncomputable def singleCamPointPositions (targets : List (List (ℝ × ℝ))) (mm : MM)
    (cals : List Cam) (v : VPar) : Py (List V3 × List ℝ) :=
  match targets with
  | [] => .ok ([], [])
  | t :: ts =>
    match pyGet t 0, pyGet cals 0 with
    | .ok xy, .ok c =>
      match epiMM2D xy.1 xy.2 c mm v with
      | none => .error .indexError
      | some p =>
        match singleCamPointPositions ts mm cals v with
        | .error e => .error e
        | .ok (ps, rc) => .ok (p :: ps, 0 :: rc)
    | _, _ => .error .indexError

end Verif.Geo
