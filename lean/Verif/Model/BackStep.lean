/-
Model of openptv_python/track.py: the computing part of one step of `trackback_c` (candidate search and linking).
-/
import Verif.Model.TrackStep

namespace Verif.Track

section
variable {P J C I D : Type} [Field D] [LinearOrder D]

/-- track.py:1168-1197: the `while` loop over the candidates. Running past the end of the list, or a number without a
particle, is an IndexError. -/
def backCands (g : Geo P J C I D) (x0 x1 x2 : P) (b2 : Frame P D I) : List Found → Part P D → Py (Part P D)
  | [], _ => .error .indexError
  | f :: rest, cur =>
    if f.ftnr = TR_UNUSED then .ok cur
    else do
      let r ← pyGetI b2.parts f.ftnr
      if g.inBounds (g.sub x1 r.x) then do
        let (angle, acc) ← g.angleAcc x1 x2 r.x
        if g.gate acc angle then do
          let cur' ← cur.register (g.rr ((g.dist x1 r.x + g.dist x0 x1) / 2) acc angle f.freq) f.ftnr
          backCands g x0 x1 x2 b2 rest cur'
        else backCands g x0 x1 x2 b2 rest cur
      else backCands g x0 x1 x2 b2 rest cur

/-- track.py:1114 and 1209-1214: the volume check of `trackback_c`. `xz` tells whether the first and third coordinates
are in the volume, `y` is the second coordinate; its limits are the local variables `Ymin` and `Ymax`, both 0. -/
def backInVolume (xz : P → Bool) (y : P → D) (x : P) : Bool := xz x && decide (0 < y x) && decide (y x < 0)

/-- track.py:1201-1233: a new particle from unmatched targets, if no candidate was registered. -/
def backTryAdd (g : Geo P J C I D) (xz : P → Bool) (y : P → D) (x0 x1 x2 : P) (cur : Part P D) (b2 : Frame P D I) :
    Py (Part P D × Frame P D I) :=
  if g.add ∧ cur.cands = [] then do
    let (quali, v2, philf) ← g.assess x2 b2.img
    if quali ≥ 2 then do
      let x3 ← g.pointPos v2
      if backInVolume xz y x3 ∧ g.inBounds (g.sub x1 x3) then do
        let (angle, acc) ← g.angleAcc x1 x2 x3
        if g.gate acc angle then do
          let cur' ← cur.register (g.rr ((g.dist x1 x3 + g.dist x0 x1) / 2) acc angle quali) b2.parts.length
          let b2' ← addParticle g b2 x3 philf
          .ok (cur', b2')
        else .ok (cur, b2)
      else .ok (cur, b2)
    else .ok (cur, b2)
  else .ok (cur, b2)

/-- track.py:1139-1234: the search for particle `h` of the current frame: only for particles with a link to the later
frame and none to the earlier one. The list of candidates is only reset for these. -/
def backSearchOne (g : Geo P J C I D) (xz : P → Bool) (y : P → D) (b0 b1 : Frame P D I) (h : Nat) (b2 : Frame P D I) :
    Py (Part P D × Frame P D I) := do
  let p ← pyGet b1.parts h
  if p.next < 0 ∨ p.prev ≠ -1 then .ok (p, b2)
  else do
    let r ← pyGetI b0.parts p.next
    let x2 := g.predict r.x p.x
    let w ← g.search x2 (g.proj x2) b2.img
    let cur ← backCands g r.x p.x x2 b2 w { p with cands := [] }
    backTryAdd g xz y r.x p.x x2 cur b2

/-- track.py:1139-1234: the loop over the particles of the current frame. -/
def backSearchLoop (g : Geo P J C I D) (xz : P → Bool) (y : P → D) (b0 : Frame P D I) :
    List Nat → Frame P D I → Frame P D I → Py (Frame P D I × Frame P D I)
  | [], b1, b2 => .ok (b1, b2)
  | h :: hs, b1, b2 => do
    let s ← backSearchOne g xz y b0 b1 h b2
    backSearchLoop g xz y b0 hs { b1 with parts := b1.parts.set h s.1 } s.2

/-- track.py:1270-1285: the test of a candidate `k` that already has a link to the frame before it. What it reads
(positions, links to the later frame in `b1`, links to the earlier frame in `b2`) is not changed by the linking loop. -/
def backAccept (g : Geo P J C I D) (b0 b1 b2 b3 : Frame P D I) (h : Nat) (k : Int) : Py Bool := do
  let p ← pyGet b1.parts h
  let r0 ← pyGetI b0.parts p.next
  let r ← pyGetI b2.parts k
  let r4 ← pyGetI b3.parts r.prev
  let (angle, acc) ← g.angleAcc r.x r4.x (g.predict2 r.x p.x r0.x)
  .ok (g.gate acc angle)

/-- track.py:1139-1298: the computing part of a step of `trackback_c` on the four buffered frames. -/
def backStepFrames (g : Geo P J C I D) (xz : P → Bool) (y : P → D) (b0 b1 b2 b3 : Frame P D I) :
    Py (Frame P D I × Frame P D I) := do
  let (b1', b2') ← backSearchLoop g xz y b0 (List.range b1.parts.length) b1 b2
  let (c, n) ← backLinkPhase (backAccept g b0 b1' b2' b3) b1'.parts b2'.parts
  .ok ({ b1' with parts := c }, { b2' with parts := n })

/-- The same on the buffer; the step does not change `buf[0]` and `buf[3]`. -/
def backBuf (g : Geo P J C I D) (xz : P → Bool) (y : P → D) : List (Frame P D I) → Py (List (Frame P D I))
  | [b0, b1, b2, b3] => do
    let s ← backStepFrames g xz y b0 b1 b2 b3
    .ok [b0, s.1, s.2, b3]
  | _ => .error .other

end

end Verif.Track
