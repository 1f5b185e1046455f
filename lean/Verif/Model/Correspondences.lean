/-
Model of openptv_python/correspondences.py.
-/
import Verif.Model.Py
import Mathlib.Data.Fin.VecNotation
import Mathlib.Data.List.FinRange
import Mathlib.Data.Fintype.Basic

namespace Verif.Corr

/-! Correlations and distances are elements of an ordered field `K`: the reals, or the rationals in examples. -/
variable {K : Type} [Field K] [LinearOrder K]

/-- constants.py:3 `NMAX = 10000`. -/
def NMAX : Nat := 10000
/-- constants.py:4 `MAXCAND = 40`. -/
def MAXCAND : Nat := 40

/-- tracking_frame_buf.py `n_tupel_dtype`: `p` (four int32) and `corr` (float64). -/
structure NTuple (K : Type) where
  p : Fin 4 → Int
  corr : Fl K
  deriving DecidableEq

/-- The zero row that the scratch arrays are initialised with.
correspondences.py:632-638 (`con0.p = 0; con0.corr = 0.0`). -/
def NTuple.zero : NTuple K := ⟨fun _ => 0, .fin 0⟩

/-- `range(num_cams)` as camera indices (num_cams ≤ 4 = length of `p`). -/
def camRange (numCams : Nat) : List (Fin 4) := (List.finRange 4).filter (fun c => c.val < numCams)

/-- `tusage`: per camera an array of `nmax` counters.
correspondences.py:31-56 `safely_allocate_target_usage_marks`. -/
abbrev Usage := Fin 4 → List Nat

/-- correspondences.py:56: a zeroed (num_cams × nmax) array. -/
def Usage.empty (nmax : Nat) : Usage := fun _ => List.replicate nmax 0

/-- numpy's `src.sort(order="corr")` (external). Assumed: it permutes the records and orders
them by non-decreasing `corr` (nan last); nothing is assumed about the order of ties. -/
structure NpSort (K : Type) [Field K] [LinearOrder K] where
  run : List (NTuple K) → List (NTuple K)
  perm : ∀ xs, (run xs).Perm xs
  sorted : ∀ xs, (run xs).Pairwise (fun a b => a.corr ≤ b.corr)

/-- correspondences.py:448-455: does any camera's target of the candidate have a positive
usage mark?  (loop with `break`; a target number beyond the usage array is an IndexError). -/
def hasUsed (u : Usage) (p : Fin 4 → Int) : List (Fin 4) → Py Bool
  | [] => .ok false
  | c :: cs =>
    if p c > -1 then do
      let k ← pyGet (u c) (p c).toNat
      if k > 0 then .ok true else hasUsed u p cs
    else hasUsed u p cs

/-- correspondences.py:461-464: increment the marks of all targets of the candidate. -/
def markUsed (u : Usage) (p : Fin 4 → Int) : List (Fin 4) → Py Usage
  | [] => .ok u
  | c :: cs =>
    if p c > -1 then do
      let k ← pyGet (u c) (p c).toNat
      markUsed (Function.update u c ((u c).set (p c).toNat (k + 1))) p cs
    else markUsed u p cs

/-- correspondences.py:447-467: the selection loop over the sorted candidates.
Returns the list written to `dst` and the final usage table.
Simplification: `dst` is a list that grows (its fixed capacity is treated separately). -/
def takeLoop (cams : List (Fin 4)) : List (NTuple K) → Usage → Py (List (NTuple K) × Usage)
  | [], u => .ok ([], u)
  | cand :: rest, u => do
    let used ← hasUsed u cand.p cams
    if used then takeLoop cams rest u
    else do
      let u' ← markUsed u cand.p cams
      let (taken, u'') ← takeLoop cams rest u'
      .ok (cand :: taken, u'')

/-- correspondences.py:392-469 `take_best_candidates`. Returns (sorted and flipped `src`,
tuples written to `dst`, usage). `src` is sorted and reversed in place (lines 440-443). -/
def takeBest (srt : NpSort K) (src : List (NTuple K)) (numCams : Nat) (u : Usage) :
    Py (List (NTuple K) × List (NTuple K) × Usage) := do
  let src' := (srt.run src).reverse
  let (taken, u') ← takeLoop (camRange numCams) src' u
  .ok (src', taken, u')

/-- One slot of an adjacency row (`p2[j]`, `corr[j]`, `dist[j]`). correspondences.py:20-28. -/
structure Slot (K : Type) where
  p2 : Nat
  corr : K
  dist : K
  deriving DecidableEq, Repr

/-- correspondences.py:83-85: rows start with zeroed slots. -/
def Slot.zero : Slot K := ⟨0, 0, 0⟩

/-- One adjacency row, `Correspond_dtype`, correspondences.py:20-28. -/
structure Row (K : Type) where
  p1 : Int
  n : Nat
  slots : List (Slot K)
  deriving Repr

/-- The slots that the row declares valid: `for j in range(row.n)`. -/
def Row.valid (r : Row K) : List (Slot K) := r.slots.take r.n

/-- `corr_list[c1][c2][i]`. The array is modelled as a function of the row index; the theorem
`WF`-preservation in Proofs shows that every index used is a target number of that camera. -/
abbrev Adj (K : Type) := Fin 4 → Fin 4 → Nat → Row K

/-- correspondences.py:357, 382-389: the row that `match_pairs` stores for target `i`, given the
candidates `(pnr, corr, tol)` that `find_candidate` returned for it; slots not written keep
their initial zeros (81-85). -/
def mkRow (i : Nat) (cands : List (Slot K)) : Row K :=
  let count := min cands.length MAXCAND
  ⟨i, count, cands.take count ++ List.replicate (MAXCAND - count) Slot.zero⟩

/-- correspondences.py:291-389 `match_pairs`: fills all rows with `i < num_targets[i1]`,
for `i1 < i2 < num_cams`; `find i1 i2 i` stands for the epi_mm + find_candidate call (345-378). -/
def matchPairs (numTargets : Fin 4 → Nat) (find : Fin 4 → Fin 4 → Nat → List (Slot K)) : Adj K :=
  fun i1 i2 i =>
    if i1 < i2 ∧ i < numTargets i1 then mkRow i (find i1 i2 i)
    else ⟨-999, 0, List.replicate MAXCAND Slot.zero⟩

/-- correspondences.py:101-157, body of the outer loop for base target `i`: all accepted
quadruplets in loop order. Each `for … if … continue` is a flatMap over the valid slots. -/
def fourOf (A : Adj K) (accept : Fl K) (i : Nat) : List (NTuple K) :=
  (A 0 1 i).valid.flatMap fun s12 =>
  (A 0 2 i).valid.flatMap fun s13 =>
  (A 0 3 i).valid.flatMap fun s14 =>
  (A 1 2 s12.p2).valid.flatMap fun s23 =>
    if s13.p2 ≠ s23.p2 then [] else
  (A 1 3 s12.p2).valid.flatMap fun s24 =>
    if s14.p2 ≠ s24.p2 then [] else
  (A 2 3 s13.p2).valid.flatMap fun s34 =>
    if s14.p2 ≠ s34.p2 then [] else
    let corr := Fl.npDiv (s12.corr + s13.corr + s14.corr + s23.corr + s24.corr + s34.corr)
      (s12.dist + s13.dist + s14.dist + s23.dist + s24.dist + s34.dist)
    if corr.npLe accept then [] else
    [⟨![(A 0 1 i).p1, s12.p2, s13.p2, s14.p2], corr⟩]

/-- correspondences.py:90-163 `four_camera_matching`: the tuples written to `scratch`, in order;
the search returns as soon as `scratch_size` of them were found (159-161). -/
def fourCameraMatching (A : Adj K) (baseCount : Nat) (accept : Fl K) (scratchSize : Nat) :
    List (NTuple K) :=
  ((List.range baseCount).flatMap (fourOf A accept)).take scratchSize

/-- A Python `for` loop that may append several items per iteration and may raise. -/
def forE {α β : Type} (xs : List α) (f : α → Py (List β)) : Py (List β) :=
  match xs with
  | [] => .ok []
  | x :: xs => do
    let a ← f x
    let b ← forE xs f
    .ok (a ++ b)

/-- `p >= nmax or tusage[cam][p] > 0` with Python's short-circuit `or`;
`strict` selects the `p > nmax` variant of lines 190 and 198. -/
def skipTarget (nmax : Nat) (u : Usage) (cam : Fin 4) (p : Nat) (strict : Bool) : Py Bool :=
  if (if strict then p > nmax else p ≥ nmax) then .ok true
  else do
    let k ← pyGet (u cam) p
    .ok (k > 0)

/-- correspondences.py:207-215: first index among *all* MAXCAND slots with `p2 == p3`. -/
def findSlot (r : Row K) (p3 : Nat) : Option (Slot K) := r.slots.find? (fun s => s.p2 = p3)

/-- correspondences.py:231-232: a tuple with -2 everywhere except the given cameras. -/
def mkTuple (ps : List (Fin 4 × Int)) (corr : Fl K) : NTuple K :=
  ⟨ps.foldl (fun f q => Function.update f q.1 q.2) (fun _ => -2), corr⟩

/-- Python `range(a, b)` over camera indices. -/
def camsBetween (a b : Nat) : List (Fin 4) :=
  (List.finRange 4).filter (fun c => a ≤ c.val ∧ c.val < b)

/-- correspondences.py:179-236 for num_cams = 4: all accepted triplets in loop order.
`p1` is read as a natural number: rows with `i < target_counts[i1]` hold `p1 = i`. -/
def threeAll (nmax : Nat) (A : Adj K) (numTargets : Fin 4 → Nat) (accept : Fl K) (u : Usage) :
    Py (List (NTuple K)) :=
  forE (camsBetween 0 2) fun i1 =>
  forE (List.range (numTargets i1)) fun i =>
  forE (camsBetween (i1.val + 1) 3) fun i2 => do
    let p1 := (A i1 i2 i).p1
    if ← skipTarget nmax u i1 p1.toNat false then return []
    forE (A i1 i2 i).valid fun s12 => do
      if ← skipTarget nmax u i2 s12.p2 true then return []
      forE (camsBetween (i2.val + 1) 4) fun i3 =>
      forE (A i1 i3 i).valid fun s13 => do
        if ← skipTarget nmax u i3 s13.p2 true then return []
        match findSlot (A i2 i3 s12.p2) s13.p2 with
        | none => return []
        | some s23 =>
          let corr := Fl.npDiv (s12.corr + s13.corr + s23.corr) (s12.dist + s13.dist + s23.dist)
          if corr.npLe accept then return []
          return [mkTuple [(i1, p1), (i2, s12.p2), (i3, s13.p2)] corr]

/-- correspondences.py:166-242 `three_camera_matching` (num_cams = 4).
Simplification: an IndexError that would come after the overflow return (239-241) is kept. -/
def threeCameraMatching (nmax : Nat) (A : Adj K) (numTargets : Fin 4 → Nat) (accept : Fl K)
    (scratchSize : Nat) (u : Usage) : Py (List (NTuple K)) := do
  let all ← threeAll nmax A numTargets accept u
  .ok (all.take scratchSize)

/-- correspondences.py:258-283 for num_cams = 4: all accepted pairs in loop order. -/
def pairsAll (nmax : Nat) (A : Adj K) (numTargets : Fin 4 → Nat) (accept : Fl K) (u : Usage) :
    Py (List (NTuple K)) :=
  forE (camsBetween 0 3) fun i1 =>
  forE (camsBetween (i1.val + 1) 4) fun i2 =>
  forE (List.range (numTargets i1)) fun i => do
    let p1 := (A i1 i2 i).p1
    if ← skipTarget nmax u i1 p1.toNat false then return []
    if (A i1 i2 i).n ≠ 1 then return []
    let s ← pyGet (A i1 i2 i).slots 0
    if ← skipTarget nmax u i2 s.p2 false then return []
    let corr := Fl.npDiv s.corr s.dist
    if corr.npLe accept then return []
    return [mkTuple [(i1, p1), (i2, s.p2)] corr]

/-- correspondences.py:245-288 `consistent_pair_matching` (num_cams = 4). -/
def consistentPairMatching (nmax : Nat) (A : Adj K) (numTargets : Fin 4 → Nat) (accept : Fl K)
    (scratchSize : Nat) (u : Usage) : Py (List (NTuple K)) := do
  let all ← pairsAll nmax A numTargets accept u
  .ok (all.take scratchSize)

/-- Writing `found` into the first entries of the scratch array; the others keep their old
contents (151-155, 233-234, 276-281: `scratch[matched] = …`). -/
def overwrite (scratch found : List (NTuple K)) : List (NTuple K) := found ++ scratch.drop found.length

/-- Per camera, the tnr fields of its targets. -/
abbrev Tnr := Fin 4 → List Int

/-- correspondences.py:686-693 for one tuple: write tuple number `i` into the tnr of its targets.
`corrected j` is the list of `pnr` of the x-sorted coordinates of camera `j`. -/
def assignTuple (corrected : Fin 4 → List Int) (i : Nat) (t : NTuple K) :
    List (Fin 4) → Tnr → Py Tnr
  | [], tnr => .ok tnr
  | j :: js, tnr =>
    if t.p j < 0 then assignTuple corrected i t js tnr
    else do
      let p1 ← pyGet (corrected j) (t.p j).toNat
      if p1 > -1 ∧ p1 < 1202590843 then do
        let _ ← pyGet (tnr j) p1.toNat
        assignTuple corrected i t js (Function.update tnr j ((tnr j).set p1.toNat i))
      else assignTuple corrected i t js tnr

/-- correspondences.py:685-693: the loop over all reported tuples, starting with number `i`. -/
def assignAll (corrected : Fin 4 → List Int) : Nat → List (NTuple K) → Tnr → Py Tnr
  | _, [], tnr => .ok tnr
  | i, t :: ts, tnr => do
    let tnr' ← assignTuple corrected i t (camRange 4) tnr
    assignAll corrected (i + 1) ts tnr'

/-- What one call of `correspondences` delivers. -/
structure Result (K : Type) where
  quads : List (NTuple K)
  triplets : List (NTuple K)
  pairs : List (NTuple K)
  tnr : Tnr

/-- The reported list `con[0 .. match_counts[3])`. -/
def Result.con (r : Result K) : List (NTuple K) := r.quads ++ r.triplets ++ r.pairs

/-- correspondences.py:629-682 for num_cams = 4 (`nmax` is NMAX; a parameter here):
the three stages with the shared scratch `con0` and usage table `tim`. `allCam` is
`cpar.all_cam_flag != 0`. Result: quadruplets, triplets, pairs (consecutive parts of `con`). -/
def stages (srt : NpSort K) (nmax : Nat) (A : Adj K) (numTargets : Fin 4 → Nat) (corrmin : Fl K)
    (allCam : Bool) : Py (List (NTuple K) × List (NTuple K) × List (NTuple K)) := do
  let con0 := List.replicate (nmax * 4) NTuple.zero
  let u0 := Usage.empty nmax
  let con0 := overwrite con0 (fourCameraMatching A (numTargets 0) corrmin (4 * nmax))
  let (con0, quads, u1) ← takeBest srt con0 4 u0
  if allCam then .ok (quads, [], [])
  else do
    let found3 ← threeCameraMatching nmax A numTargets corrmin (4 * nmax) u1
    let (con0, trips, u2) ← takeBest srt (overwrite con0 found3) 4 u1
    let found2 ← consistentPairMatching nmax A numTargets corrmin (4 * nmax) u2
    let (_, prs, _) ← takeBest srt (overwrite con0 found2) 4 u2
    .ok (quads, trips, prs)

/-- correspondences.py:588-700 `correspondences` for num_cams = 4; `find` stands for the
epi_mm/find_candidate calls of match_pairs. -/
def correspondences (srt : NpSort K) (nmax : Nat) (numTargets : Fin 4 → Nat)
    (find : Fin 4 → Fin 4 → Nat → List (Slot K)) (corrmin : Fl K) (allCam : Bool)
    (corrected : Fin 4 → List Int) (tnr : Tnr) : Py (Result K) := do
  let A := matchPairs numTargets find
  let (quads, trips, prs) ← stages srt nmax A numTargets corrmin allCam
  let tnr' ← assignAll corrected 0 (quads ++ trips ++ prs) tnr
  .ok ⟨quads, trips, prs, tnr'⟩

end Verif.Corr

namespace Verif.Corr

/-- Python list item assignment `xs[i] = v`. -/
def pySet {α : Type} (xs : List α) (i : Nat) (v : α) : Py (List α) :=
  if i < xs.length then .ok (xs.set i v) else .error .indexError

/-- The `match_counts` bookkeeping of `correspondences` (correspondences.py:655-685), with the
results of the three searches abstracted: `n4`, `n3`, `n2` are what `take_best_candidates` would
return in each stage; `err3` says whether `three_camera_matching` raised (for num_cams = 3 the
assignment of a length-3 array to the length-4 field `p`, line 233, is a ValueError).
Returns the counts seen by the final loop `range(match_counts[3])`. -/
def countsBookkeeping (numCams : Nat) (allCam : Bool) (n4 n3 n2 : Nat) (err3 : Bool)
    (counts : List Nat) : Py (List Nat) := do
  let counts ←
    if numCams = 4 then do
      let counts ← pySet counts 0 n4
      let a ← pyGet counts 3
      let b ← pyGet counts 0
      pySet counts 3 (a + b)
    else .ok counts
  let counts ←
    if (numCams = 4 ∧ allCam = false) ∨ numCams = 3 then do
      if err3 then .error .valueError
      let counts ← pySet counts 1 n3
      let a ← pyGet counts 3
      let b ← pyGet counts 1
      pySet counts 3 (a + b)
    else .ok counts
  let counts ←
    if numCams > 1 ∧ allCam = false then do
      let counts ← pySet counts 2 n2
      let a ← pyGet counts 3
      let b ← pyGet counts 2
      pySet counts 3 (a + b)
    else .ok counts
  let _ ← pyGet counts 3
  .ok counts

/-- correspondences.py:530-583 `py_correspondences` (2-4 cameras): the counters are allocated with
one entry per camera (530), filled by `correspondences` (546) and split into the clique-size
groups (556, 583). Result: the group sizes and the total number reported. -/
def pyCorrespondencesCounts (numCams : Nat) (allCam : Bool) (n4 n3 n2 : Nat) (err3 : Bool) :
    Py (List Nat × Nat) := do
  let counts ← countsBookkeeping numCams allCam n4 n3 n2 err3 (List.replicate numCams 0)
  let groups ← (List.range (numCams - 1)).mapM (fun ct => pyGet counts (4 - numCams + ct))
  let total ← pyGet counts (numCams - 1)
  .ok (groups, total)

end Verif.Corr
