/-
Model of openptv_python/track.py: `trackcorr_c_loop` (candidate search of one forward step and the
composition of the step), `trackback_c` linking, the sequence schedules, and the frame buffer.
-/
import Verif.Model.Tracking

namespace Verif.Track

/-- A row of the candidate list: the fields of `Foundpix` the step reads. -/
structure Found where
  ftnr : Int
  freq : Nat
  deriving DecidableEq, Repr

/-- Everything geometric the step calls, as parameters: nothing is assumed about them. Positions
`P`, image projections `J` (one point per camera), candidate indices `C`, image data `I` of a
frame, decision values `D`. -/
structure Geo (P J C I D : Type) where
  /-- search_volume_center_moving, track.py:157-179 -/
  predict : P → P → P
  /-- track.py:853-855, `0.5 * (5 X3 - 4 X1 + X0)` -/
  predict2 : P → P → P → P
  /-- vec_subt -/
  sub : P → P → P
  /-- vec_diff_norm -/
  dist : P → P → D
  /-- point_to_pixel for every camera, track.py:556-577 -/
  proj : P → J
  /-- track.py:826-833: measured positions of the particle's own targets where it has some -/
  projOwn : I → Nat → P → J
  /-- sorted_candidates_in_volume, track.py:580-621 -/
  search : P → J → I → Py (List Found)
  /-- assess_new_position, track.py:624-697 -/
  assess : P → I → Py (Nat × J × C)
  /-- point_position, orientation.py:52-111 -/
  pointPos : J → Py P
  /-- the volume check at track.py:918-926 and 989-993 -/
  inVolume : P → Bool
  /-- pos3d_in_bounds, track.py:203-222 -/
  inBounds : P → Bool
  /-- angle_acc, track.py:232-268 -/
  angleAcc : P → P → P → Py (D × D)
  /-- effect of add_particle on targets and correspondences, track.py:746-758 -/
  addImg : I → C → Nat → Py I
  dacc : D
  dangle : D
  lmax : D
  add : Bool

section
variable {P J C I D : Type} [Field D] [LinearOrder D]

/-- track.py:883-887 (and 934, 958-960, 1000-1002): the acceptance test on acceleration, angle. -/
def Geo.gate (g : Geo P J C I D) (acc angle : D) : Bool :=
  decide ((acc < g.dacc ∧ angle < g.dangle) ∨ acc < g.dacc / 10)

/-- track.py:892-896: the decision value. Exact field arithmetic; division by a zero parameter
(numpy inf/nan) is not modelled. -/
def Geo.rr (g : Geo P J C I D) (dl acc angle : D) (quali : Nat) : D :=
  (dl / g.lmax + acc / g.dacc + angle / g.dangle) / quali

/-- track.py:725-760 `add_particle`, the particle part: a fresh Pathinfo with reset links. -/
def addParticle (g : Geo P J C I D) (f : Frame P D I) (x : P) (c : C) : Py (Frame P D I) := do
  let img ← g.addImg f.img c f.parts.length
  .ok { f with parts := f.parts ++ [⟨x, PREV_NONE, NEXT_NONE, [], 0⟩], img := img }

/-- The fixed quantities of one candidate: X[0] (if there is a previous position), X[1], X[2],
X[3], X[5] and the candidate itself. -/
structure Ctx (P : Type) where
  x0 : Option P
  x1 : P
  x2 : P
  x3 : P
  x5 : P
  f : Found

/-- track.py:866-903: the `kk` loop over the candidates of the candidate. Running past the end of
the list is the IndexError of `wn[kk]`. -/
def lookAhead (g : Geo P J C I D) (ctx : Ctx P) (b3 : Frame P D I) :
    List Found → Part P D → Py (Part P D)
  | [], _ => .error .indexError
  | fn :: rest, cur =>
    if fn.ftnr = TR_UNUSED ∨ (b3.parts.length : Int) ≤ fn.ftnr then .ok cur
    else do
      let q ← pyGetI b3.parts fn.ftnr
      if g.inBounds (g.sub q.x ctx.x3) then do
        let (angle1, acc1) ← g.angleAcc ctx.x3 q.x ctx.x5
        let (angle0, acc0) ←
          if ctx.x0.isSome then g.angleAcc ctx.x1 ctx.x2 ctx.x3 else .ok (angle1, acc1)
        let acc := (acc0 + acc1) / 2
        let angle := (angle0 + angle1) / 2
        if g.gate acc angle then do
          let dl := (g.dist ctx.x1 ctx.x3 + g.dist q.x ctx.x3) / 2
          let cur' ← cur.register (g.rr dl acc angle (fn.freq + ctx.f.freq)) ctx.f.ftnr
          lookAhead g ctx b3 rest cur'
        else lookAhead g ctx b3 rest cur
      else lookAhead g ctx b3 rest cur

/-- track.py:905-947: a new particle in the frame after next, from unmatched targets. -/
def tryNew (g : Geo P J C I D) (ctx : Ctx P) (cur : Part P D) (b3 : Frame P D I) :
    Py (Part P D × Frame P D I) := do
  let (quali, v2, philf) ← g.assess ctx.x5 b3.img
  if quali ≥ 2 then do
    let x4 ← g.pointPos v2
    if g.inVolume x4 ∧ g.inBounds (g.sub ctx.x3 x4) then do
      let (angle, acc) ← g.angleAcc ctx.x3 x4 ctx.x5
      if g.gate acc angle then do
        let dl := (g.dist ctx.x1 ctx.x3 + g.dist x4 ctx.x3) / 2
        let cur' ← cur.register (g.rr dl acc angle (quali + ctx.f.freq)) ctx.f.ftnr
        let b3' ← (if g.add then addParticle g b3 x4 philf else .ok b3)
        .ok (cur', b3')
      else .ok (cur, b3)
    else .ok (cur, b3)
  else .ok (cur, b3)

/-- track.py:954-972: link on the first candidate frame alone, if nothing was registered yet. -/
def tryPlain (g : Geo P J C I D) (ctx : Ctx P) (cur : Part P D) : Py (Part P D) :=
  match ctx.x0 with
  | some x0 =>
    if cur.cands = [] then
      if g.inBounds (g.sub ctx.x3 ctx.x1) then do
        let (angle, acc) ← g.angleAcc ctx.x1 ctx.x2 ctx.x3
        if g.gate acc angle then
          cur.register
            (g.rr ((g.dist ctx.x1 ctx.x3 + g.dist x0 ctx.x1) / 2) acc angle ctx.f.freq) ctx.f.ftnr
        else .ok cur
      else .ok cur
    else .ok cur
  | none => .ok cur

/-- track.py:852-857: predicted position in the frame after next (X[5]). -/
def Geo.ahead (g : Geo P J C I D) (x0 : Option P) (x1 x3 : P) : P :=
  match x0 with
  | some x0 => g.predict2 x3 x1 x0
  | none => g.predict x1 x3

/-- track.py:845-975: body of the `mm` loop for the candidate `f`, whose particle is `r`. -/
def candOne (g : Geo P J C I D) (x0 : Option P) (x1 x2 : P) (f : Found) (r : Part P D)
    (cur : Part P D) (b3 : Frame P D I) : Py (Part P D × Frame P D I) := do
  let x5 := g.ahead x0 x1 r.x
  let ctx : Ctx P := ⟨x0, x1, x2, r.x, x5, f⟩
  let wn ← g.search x5 (g.proj x5) b3.img
  let cur1 ← (if wn.length > 1 then lookAhead g ctx b3 wn cur else .ok cur)
  let s ← tryNew g ctx cur1 b3
  let cur3 ← tryPlain g ctx s.1
  .ok (cur3, s.2)

/-- track.py:843-975: the `mm` loop over the candidates in the next frame. -/
def candLoop (g : Geo P J C I D) (x0 : Option P) (x1 x2 : P) (b2 : Frame P D I) :
    List Found → Part P D → Frame P D I → Py (Part P D × Frame P D I)
  | [], _, _ => .error .indexError
  | f :: rest, cur, b3 =>
    if f.ftnr = TR_UNUSED ∨ (b2.parts.length : Int) ≤ f.ftnr then .ok (cur, b3)
    else do
      let r ← pyGetI b2.parts f.ftnr
      let s ← candOne g x0 x1 x2 f r cur b3
      candLoop g x0 x1 x2 b2 rest s.1 s.2

/-- track.py:977-1018: a new particle in the next frame if no candidate was registered. -/
def tryAdd (g : Geo P J C I D) (x0 : Option P) (x1 x2 : P) (cur : Part P D) (b2 : Frame P D I) :
    Py (Part P D × Frame P D I) :=
  match x0 with
  | some x0 =>
    if g.add ∧ cur.cands = [] then do
      let (quali, v2, philf) ← g.assess x2 b2.img
      if quali ≥ 2 then do
        let x3 ← g.pointPos v2
        if g.inVolume x3 ∧ g.inBounds (g.sub x2 x3) then do
          let (angle, acc) ← g.angleAcc x1 x2 x3
          if g.gate acc angle then do
            let dl := (g.dist x1 x3 + g.dist x0 x1) / 2
            let cur' ← cur.register (g.rr dl acc angle quali) b2.parts.length
            let b2' ← addParticle g b2 x3 philf
            .ok (cur', b2')
          else .ok (cur, b2)
        else .ok (cur, b2)
      else .ok (cur, b2)
    else .ok (cur, b2)
  | none => .ok (cur, b2)

/-- track.py:819-821: the previous position (X[0]), if the particle has one. -/
def prevPos (b0 : Frame P D I) (p : Part P D) : Py (Option P) :=
  if p.prev ≥ 0 then do
    let r ← pyGetI b0.parts p.prev
    .ok (some r.x)
  else .ok none

/-- track.py:822-826: centre of the search volume (X[2]). -/
def Geo.centre (g : Geo P J C I D) (x0 : Option P) (x1 : P) : P :=
  match x0 with
  | some x0 => g.predict x0 x1
  | none => x1

/-- track.py:823-834: its position in the images. -/
def Geo.centreProj (g : Geo P J C I D) (x0 : Option P) (b1 : Frame P D I) (h : Nat) (x2 : P) : J :=
  match x0 with
  | some _ => g.proj x2
  | none => g.projOwn b1.img h x2

/-- track.py:809-1021: the search for one particle `h` of the current frame. -/
def searchOne (g : Geo P J C I D) (b0 b1 : Frame P D I) (h : Nat) (b2 b3 : Frame P D I) :
    Py (Part P D × Frame P D I × Frame P D I) := do
  let p ← pyGet b1.parts h
  let x0 ← prevPos b0 p
  let x2 := g.centre x0 p.x
  let w ← g.search x2 (g.centreProj x0 b1 h x2) b2.img
  if w.length = 1 then .ok ({ p with cands := [] }, b2, b3)
  else do
    let s ← candLoop g x0 p.x x2 b2 w { p with cands := [] } b3
    let t ← tryAdd g x0 p.x x2 s.1 b2
    .ok (t.1, t.2, s.2)

/-- track.py:808-1021: the loop over the particles of the current frame. -/
def searchLoop (g : Geo P J C I D) (b0 : Frame P D I) :
    List Nat → Frame P D I → Frame P D I → Frame P D I →
    Py (Frame P D I × Frame P D I × Frame P D I)
  | [], b1, b2, b3 => .ok (b1, b2, b3)
  | h :: hs, b1, b2, b3 => do
    let (cur, b2', b3') ← searchOne g b0 b1 h b2 b3
    searchLoop g b0 hs { b1 with parts := b1.parts.set h cur } b2' b3'

/-- track.py:781-1084: the computing part of `trackcorr_c_loop` on the four buffered frames;
returns the frames and the number of links counted. -/
def stepFrames (g : Geo P J C I D) (b0 b1 b2 b3 : Frame P D I) :
    Py (Frame P D I × Frame P D I × Frame P D I × Nat) := do
  let (b1', b2', b3') ← searchLoop g b0 (List.range b1.parts.length) b1 b2 b3
  let (c, n, k) ← linkPhase b1'.parts b2'.parts
  .ok ({ b1' with parts := c }, { b2' with parts := n }, b3', k)

/-- track.py:781-1084 on the buffer of four frames; the step does not touch `buf[0]`. -/
def trackBuf (g : Geo P J C I D) : List (Frame P D I) → Py (List (Frame P D I))
  | [b0, b1, b2, b3] => do
    let s ← stepFrames g b0 b1 b2 b3
    .ok [b0, s.1, s.2.1, s.2.2.1]
  | _ => .error .other

end

/-! ### Frame buffer and sequence schedule -/

/-- tracking_frame_buf.py:532-547 `fb_next`: `deque.rotate(-1)`. -/
def fbNext {F : Type} : List F → List F
  | [] => []
  | x :: xs => xs ++ [x]

/-- tracking_frame_buf.py:549-562 `fb_prev`: `deque.rotate(1)`. -/
def fbPrev {F : Type} (b : List F) : List F :=
  match b.getLast? with
  | none => []
  | some x => x :: b.dropLast

/-- Events of a run: disk operations, and (ghost) the buffer a step computes on. -/
inductive Ev (F : Type)
  | read (n : Int)
  | write (n : Int) (f : F)
  | step (n : Int) (buf : List F)

/-- Buffer and the events so far. -/
structure Run (F : Type) where
  buf : List F
  log : List (Ev F)

section
variable {F : Type}

/-- tracking_frame_buf.py:618-636 `read_frame_at_end`: `disk n` is what reading frame `n` puts into
the last buffer object. (A failed read returns an empty frame; IOError is never raised because the
particle count is never -1.) -/
def readAtEnd (disk : Int → F) (n : Int) (r : Run F) : Run F :=
  ⟨r.buf.dropLast ++ [disk n], r.log ++ [.read n]⟩

/-- tracking_frame_buf.py:669-689 `write_frame_from_start`: writes `buf[0]`. -/
def writeFromStart (n : Int) (r : Run F) : Py (Run F) := do
  let f ← pyGet r.buf 0
  .ok ⟨r.buf, r.log ++ [.write n f]⟩

def Run.next (r : Run F) : Run F := ⟨fbNext r.buf, r.log⟩
def Run.prev (r : Run F) : Run F := ⟨fbPrev r.buf, r.log⟩

/-- track.py:763-778 `track_forward_start`. -/
def forwardStart (disk : Int → F) (first : Int) (r : Run F) : Run F :=
  ((List.range 3).foldl (fun r i => (readAtEnd disk (first + i) r).next) r).prev

/-- track.py:781-1095 `trackcorr_c_loop`: `process` is the computing part (`stepFrames`) on the
whole buffer. -/
def forwardStep (disk : Int → F) (process : List F → Py (List F)) (last step : Int)
    (r : Run F) : Py (Run F) := do
  let buf ← process r.buf
  let r2 ← writeFromStart step (Run.next ⟨buf, r.log ++ [.step step r.buf]⟩)
  .ok (if step < last - 2 then readAtEnd disk (step + 3) r2 else r2)

/-- track.py:1099-1108 `trackcorr_c_finish`: the averages over `last - first` steps are only
printed, but computing them raises if there was no step. -/
def forwardFinish (first last step : Int) (r : Run F) : Py (Run F) :=
  if last - first = 0 then .error .zeroDivision else writeFromStart step r.next

/-- The steps `s, s+1, ..` of a run, `k` of them. -/
def forwardSteps (disk : Int → F) (process : List F → Py (List F)) (last : Int) :
    Nat → Int → Run F → Py (Run F)
  | 0, _, r => .ok r
  | k + 1, s, r => do
    let r' ← forwardStep disk process last s r
    forwardSteps disk process last k (s + 1) r'

/-- A full forward run as in the documented use (tests/test_tracking_run.py:134-142):
start, a step for every `step` in range(first, last), finish(last). -/
def forwardRun (disk : Int → F) (process : List F → Py (List F)) (first last : Int)
    (buf0 : List F) : Py (Run F) := do
  let r ← forwardSteps disk process last (last - first).toNat first
    (forwardStart disk first ⟨buf0, []⟩)
  forwardFinish first last last r

/-- track.py:1131-1135: priming of `trackback_c` (frames last .. last-3). -/
def backStart (disk : Int → F) (last : Int) (r : Run F) : Run F :=
  ((List.range 4).foldl (fun r i => (readAtEnd disk (last - i) r).next) r).prev

/-- track.py:1138-1307: one iteration of the backward sequence loop. -/
def backStep (disk : Int → F) (process : List F → Py (List F)) (first step : Int)
    (r : Run F) : Py (Run F) := do
  let buf ← process r.buf
  let r2 ← writeFromStart step (Run.next ⟨buf, r.log ++ [.step step r.buf]⟩)
  .ok (if step > first + 2 then readAtEnd disk (step - 3) r2 else r2)

/-- `k` backward steps from step `s` down. -/
def backSteps (disk : Int → F) (process : List F → Py (List F)) (first : Int) :
    Nat → Int → Run F → Py (Run F)
  | 0, _, r => .ok r
  | k + 1, s, r => do
    let r' ← backStep disk process first s r
    backSteps disk process first k (s - 1) r'

/-- track.py:1111-1330 `trackback_c`: the final write uses the loop variable `step` as the loop
left it (first + 1; or last - 3 from the priming loop if there was no iteration, in which case the
division at 1319 raises ZeroDivisionError when last - first - 1 = 0). -/
def backRun (disk : Int → F) (process : List F → Py (List F)) (first last : Int)
    (buf0 : List F) : Py (Run F) := do
  let r ← backSteps disk process first (last - 1 - first).toNat (last - 1)
    (backStart disk last ⟨buf0, []⟩)
  if last - first - 1 = 0 then .error .zeroDivision
  else writeFromStart (if first + 1 ≤ last - 1 then first + 1 else last - 3) r.next

end

/-! ### Backward linking phase -/

section
variable {P D I : Type} [LinearOrder D]

/-- track.py:1238-1246: sort the candidates. -/
def backPrelim (p : Part P D) : Part P D := { p with cands := sortPairs p.cands }

/-- track.py:1253-1298: one iteration of the backward linking loop (`c` current frame, `n` the
frame before it). `ok h k` is the acceptance test of lines 1274-1290 (angle and acceleration over
the neighbouring frames). -/
def backLinkOne (accept : Nat → Int → Py Bool) (h : Nat) (c n : List (Part P D)) :
    Py (List (Part P D) × List (Part P D)) := do
  let p ← pyGet c h
  match p.cands with
  | [] => .ok (c, n)
  | (d, k) :: _ => do
    let r ← pyGetI n k
    if r.prev = PREV_NONE ∧ r.next = NEXT_NONE then do
      let n' ← pySetI n k { r with next := h }
      .ok (c.set h { p with final := d, prev := k }, n')
    else if r.prev ≠ PREV_NONE ∧ r.next = NEXT_NONE then do
      let b ← accept h k
      if b then do
        let n' ← pySetI n k { r with next := h }
        .ok (c.set h { p with final := d, prev := k }, n')
      else .ok (c, n)
    else .ok (c, n)

/-- track.py:1252-1298: the loop. -/
def backLinkLoop (accept : Nat → Int → Py Bool) : List Nat → List (Part P D) → List (Part P D) →
    Py (List (Part P D) × List (Part P D))
  | [], c, n => .ok (c, n)
  | h :: hs, c, n => do
    let (c', n') ← backLinkOne accept h c n
    backLinkLoop accept hs c' n'

/-- track.py:1237-1298: the backward linking phase. -/
def backLinkPhase (accept : Nat → Int → Py Bool) (c n : List (Part P D)) :
    Py (List (Part P D) × List (Part P D)) :=
  let c' := c.map backPrelim
  backLinkLoop accept (List.range c'.length) c' n

end

end Verif.Track
