/-
Model of openptv_python/track.py: candidate registration and frequency sort, one forward tracking
step (candidate search, link decision, counters), the backward linking phase, the sequence loop and
the frame buffer of openptv_python/tracking_frame_buf.py.
-/
import Verif.Model.Py
import Verif.Model.Search
import Mathlib.Data.List.Sort
import Mathlib.Algebra.Order.Field.Basic

namespace Verif.Track

/-- constants.py:15-17, 23: POSI, PREV_NONE, NEXT_NONE, TR_UNUSED. -/
def POSI : Nat := 80
def PREV_NONE : Int := -1
def NEXT_NONE : Int := -2
def TR_UNUSED : Int := -1
/-- constants.py:5: PT_UNUSED. -/
def PT_UNUSED : Int := -999

/-- `xs[i] = v` for a Python integer index (negative indices count from the end). -/
def pySetI {α : Type} (xs : List α) (i : Int) (v : α) : Py (List α) :=
  if 0 ≤ i then (if i.toNat < xs.length then .ok (xs.set i.toNat v) else .error .indexError)
  else if 0 ≤ i + xs.length then .ok (xs.set (i + xs.length).toNat v)
  else .error .indexError

/-! ### Found-pixel records: registration and frequency sort -/

/-- `Foundpix_dtype`, track.py:49-51. -/
structure FP where
  ftnr : Int
  freq : Nat
  cams : List Bool
  deriving DecidableEq, Repr

/-- reset_foundpix_array, track.py:63-81 (and the default row at 584-587). -/
def FP.unused : FP := ⟨TR_UNUSED, 0, [false, false, false, false]⟩

/-- track.py:137-145: the registration loop of `register_closest_neighbs`, on the four records
`reg` of camera `cam`; `cands` is the result of candsearch_in_pix. A negative index that is not
PT_UNUSED reads from the end of the target list, as in Python. -/
def registerLoop (tnrs : List Int) (cam : Nat) : List Int → List FP → Py (List FP)
  | c :: cs, r :: rs =>
    if c = PT_UNUSED then do
      let rest ← registerLoop tnrs cam cs rs
      .ok ({ r with ftnr := TR_UNUSED } :: rest)
    else do
      let t ← pyGetI tnrs c
      let rest ← registerLoop tnrs cam cs rs
      .ok ({ r with cams := r.cams.set cam true, ftnr := t } :: rest)
  | _, _ => .ok []

/-- track.py:100-147 `register_closest_neighbs`, returning the four records. -/
def registerClosest {K : Type} [Field K] [LinearOrder K] (ts : List (Search.Tgt K)) (cam : Nat) (cx cy dl dr du dd imx imy : K)
    (reg : List FP) : Py (List FP) := do
  let cands ← Search.candsearchInPix ts cx cy dl dr du dd imx imy
  registerLoop (ts.map Search.Tgt.tnr) cam cands reg

/-- track.py:495-499: camera `j` saw number `k` (rows 4j..4j+3). -/
def seenIn (a : List FP) (k : Int) (j : Nat) : Bool :=
  ((a.drop (4 * j)).take 4).any (fun r => r.ftnr == k)

/-- track.py:494-505: which cameras saw the row's number, and how many (numbers of unused rows are
not counted). -/
def countRow (a : List FP) (numCams : Nat) (r : FP) : FP :=
  let cams := r.cams.mapIdx (fun j b => b || (decide (j < numCams) && seenIn a r.ftnr j))
  { r with cams := cams,
           freq := if r.ftnr ≠ TR_UNUSED then r.freq + (cams.take numCams).countP id else r.freq }

/-- One pass of track.py:509-511 (and 521-523) from the end to the front. The assignment
`a[j-1], a[j] = a[j], a[j-1]` on rows of a numpy record array copies views: both rows end up equal
to the old `a[j]`. -/
def bubble : List FP → List FP
  | [] => []
  | x :: xs =>
    match bubble xs with
    | [] => [x]
    | y :: ys => if x.freq < y.freq then y :: y :: ys else x :: y :: ys

/-- track.py:508-511: all passes `i = 1 .. N-1`; pass `i` leaves the first `i-1` rows alone. -/
def sortFreq (a : List FP) : List FP :=
  (List.range (a.length - 1)).foldl (fun a i => a.take i ++ bubble (a.drop i)) a

/-- track.py:515-518: row `r` compared with an earlier row. -/
def pruneRow (k : Int) (r : FP) : FP :=
  if k = r.ftnr ∨ r.freq < 2 then { r with freq := 0, ftnr := TR_UNUSED } else r

/-- track.py:514-518: the first row prunes all later ones, then the second, and so on; the number is
the count of rows left. -/
def pruneN : Nat → List FP → List FP
  | 0, l => l
  | _ + 1, [] => []
  | n + 1, x :: xs => x :: pruneN n (xs.map (pruneRow x.ftnr))

/-- track.py:514-518. -/
def prune (l : List FP) : List FP := pruneN l.length l

/-- track.py:490-530 `sort_candidates_by_freq`: the array after the call and the returned count. -/
def sortByFreq (a : List FP) (numCams : Nat) : List FP × Nat :=
  let a1 := a.map (countRow a numCams)
  let a2 := sortFreq a1
  let a3 := prune a2
  let a4 := sortFreq a3
  (a4, a4.countP (fun r => r.freq ≠ 0))

/-- track.py:604-619: what `sorted_candidates_in_volume` returns, given the registered rows. -/
def candidateList (a : List FP) (numCams : Nat) : List FP :=
  let (a', n) := sortByFreq a numCams
  if n > 0 then a'.take (n + 1) else [FP.unused]

/-! ### Link candidates of one particle (`decis`, `linkdecis`, `inlist`) -/

/-- The candidate fields of `Pathinfo`, tracking_frame_buf.py:270-274. -/
structure Slots (D : Type) where
  decis : List D
  link : List Int
  inlist : Nat
  deriving DecidableEq, Repr

/-- tracking_frame_buf.py:290-294 `register_link_candidate`. -/
def Slots.register {D : Type} (s : Slots D) (r : D) (k : Int) : Py (Slots D) :=
  if s.inlist < s.decis.length then
    if s.inlist < s.link.length then
      .ok ⟨s.decis.set s.inlist r, s.link.set s.inlist k, s.inlist + 1⟩
    else .error .indexError
  else .error .indexError

/-- Python's tuple comparison `<=` on (float, int) pairs, used by `sorted` at track.py:550. -/
def pairLe {D : Type} [LinearOrder D] (a b : D × Int) : Prop := a.1 < b.1 ∨ (a.1 = b.1 ∧ a.2 ≤ b.2)

instance {D : Type} [LinearOrder D] : DecidableRel (pairLe (D := D)) :=
  fun a b => by unfold pairLe; infer_instance

/-- `sorted` of a list of pairs (track.py:550). -/
def sortPairs {D : Type} [LinearOrder D] (l : List (D × Int)) : List (D × Int) :=
  l.insertionSort pairLe

/-- track.py:533-553 `sort`: sorts the first `n` entries of both lists together; unpacking
`zip(*[])` raises a ValueError when there is nothing to sort. -/
def sortN {D : Type} [LinearOrder D] (n : Nat) (a : List D) (b : List Int) :
    Py (List D × List Int) :=
  let ps := sortPairs ((a.take n).zip (b.take n))
  if ps = [] then .error .valueError
  else .ok (ps.map Prod.fst ++ a.drop n, ps.map Prod.snd ++ b.drop n)

/-! ### Particles and frames -/

/-- `Pathinfo` (tracking_frame_buf.py:262-300). `cands` abstracts the first `inlist` entries of
`decis`/`linkdecis` (see `Slots` and its refinement theorem). -/
structure Part (P D : Type) where
  x : P
  prev : Int
  next : Int
  cands : List (D × Int)
  final : D
  deriving DecidableEq, Repr

/-- `Frame`: particles and everything that belongs to the images (targets, correspondences), kept
abstract here. `no` is a ghost field: the frame number last read into this object. -/
structure Frame (P D I : Type) where
  no : Int
  parts : List (Part P D)
  img : I
  deriving DecidableEq, Repr

section
variable {P D I : Type}

/-- tracking_frame_buf.py:290-294 at list level, with POSI slots. -/
def Part.register (p : Part P D) (r : D) (k : Int) : Py (Part P D) :=
  if p.cands.length < POSI then .ok { p with cands := p.cands ++ [(r, k)] }
  else .error .indexError

end

/-! ### Linking phase of a forward step -/

section
variable {P D I : Type} [LinearOrder D]

/-- track.py:1041-1050: sort the candidates, take the best as preliminary link. -/
def prelim (p : Part P D) : Part P D :=
  match sortPairs p.cands with
  | [] => p
  | (d, k) :: rest => { p with cands := (d, k) :: rest, final := d, next := k }

/-- track.py:1055-1079: one iteration of the linking loop (`c` current, `n` next frame). The
boolean says whether `count1` is incremented. -/
def linkOne (h : Nat) (c n : List (Part P D)) : Py (List (Part P D) × List (Part P D) × Bool) := do
  let p ← pyGet c h
  if p.cands ≠ [] then do
    let r ← pyGetI n p.next
    if r.prev = PREV_NONE then do
      let n' ← pySetI n p.next { r with prev := h }
      .ok (c, n', p.next ≠ NEXT_NONE)
    else do
      let q ← pyGetI c r.prev
      if q.final > p.final then do
        let c' ← pySetI c r.prev { q with next := NEXT_NONE }
        let n' ← pySetI n p.next { r with prev := h }
        .ok (c', n', p.next ≠ NEXT_NONE)
      else .ok (c.set h { p with next := NEXT_NONE }, n, false)
  else .ok (c, n, p.next ≠ NEXT_NONE)

/-- track.py:1054-1079: the loop, with the counter `count1`. -/
def linkLoop : List Nat → List (Part P D) → List (Part P D) → Nat →
    Py (List (Part P D) × List (Part P D) × Nat)
  | [], c, n, k => .ok (c, n, k)
  | h :: hs, c, n, k => do
    let (c', n', b) ← linkOne h c n
    linkLoop hs c' n' (k + if b then 1 else 0)

/-- track.py:1040-1079: the whole linking phase. -/
def linkPhase (c n : List (Part P D)) : Py (List (Part P D) × List (Part P D) × Nat) :=
  let c' := c.map prelim
  linkLoop (List.range c'.length) c' n 0

end

end Verif.Track
