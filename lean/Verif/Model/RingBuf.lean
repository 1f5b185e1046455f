/-
Model of openptv_python/tracking_frame_buf.py `FrameBufBase`: the frame buffer as a ring, with `push`, `pop` and the rotations.
-/
import Verif.Model.TrackStep

namespace Verif.Ring
open Verif.Track

/-- tracking_frame_buf.py:498-512: the attributes of a `FrameBufBase`. -/
structure Buf (F : Type) where
  buf : List F
  bufLen : ℕ
  size : ℕ
  head : ℕ

/-- tracking_frame_buf.py:498-512 `FrameBufBase.__init__` (without the number of cameras). -/
def newBase {F : Type} (buf : List F) (bufLen : ℕ) : Buf F := ⟨buf, bufLen, 0, 0⟩

/-- tracking_frame_buf.py:568-593 `FrameBuf.__init__` (without the file names): `frames` are the new, empty frames; the ring counts as
full. -/
def newFrameBuf {F : Type} (frames : List F) : Buf F := ⟨frames, frames.length, frames.length, 0⟩

/-- What a user may do with the buffer. -/
inductive Op (F : Type) where
  | push (x : F)
  | pop
  | next
  | prev

/-- tracking_frame_buf.py:514-521 `push`: a full ring is reported on the console only. -/
def push {F : Type} (b : Buf F) (x : F) : Py (Buf F) :=
  if b.size < b.bufLen then
    if (b.head + b.size) % b.bufLen < b.buf.length then
      .ok { b with buf := b.buf.set ((b.head + b.size) % b.bufLen) x, size := b.size + 1 }
    else .error .indexError
  else .ok b

/-- tracking_frame_buf.py:523-532 `pop`: an empty ring is reported on the console, and `None` returned. -/
def pop {F : Type} (b : Buf F) : Py (Buf F × Option F) :=
  if 0 < b.size then do
    let item ← pyGet b.buf b.head
    .ok ({ b with head := (b.head + 1) % b.bufLen, size := b.size - 1 }, some item)
  else .ok (b, none)

/-- One call; the second component is what it returns. -/
def step {F : Type} (b : Buf F) : Op F → Py (Buf F × Option F)
  | .push x => do let b ← push b x; .ok (b, none)
  | .pop => pop b
  | .next => .ok ({ b with buf := fbNext b.buf }, none)
  | .prev => .ok ({ b with buf := fbPrev b.buf }, none)

/-- A history of calls: the buffer at the end, and what the calls returned. -/
def steps {F : Type} (b : Buf F) : List (Op F) → Py (Buf F × List (Option F))
  | [] => .ok (b, [])
  | o :: os => do
    let r ← step b o
    let rs ← steps r.1 os
    .ok (rs.1, r.2 :: rs.2)

end Verif.Ring
