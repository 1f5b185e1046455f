/-
Runs on frames with other image data, of which the searches see a part, are runs on what the searches see (adding off).
-/
import Verif.Model.FileTrack
import Verif.Props.Linking
import Verif.Spec.Tracking

namespace Verif.Track
open Verif.Track.Spec

/-- Change of the image data of a frame. -/
def Frame.mapImg {P D I I' : Type} (see : I' → I) (f : Frame P D I') : Frame P D I := ⟨f.no, f.parts, see f.img⟩

section
variable {P J C I I' D : Type} [Field D] [LinearOrder D] {g : Geo P J C I D} {see : I' → I}

theorem lookAhead_onImages {ctx : Ctx P} {b3 : Frame P D I'} : ∀ (w : List Found) (cur : Part P D),
    lookAhead (g.onImages see) ctx b3 w cur = lookAhead g ctx (b3.mapImg see) w cur
  | [], cur => rfl
  | fn :: w, cur => by
    unfold lookAhead
    simp only [lookAhead_onImages w]
    rfl

/-- `tryNew` without adding, after the assessment; the frame is only passed on. -/
def newBody {X : Type} (g : Geo P J C I D) (ctx : Ctx P) (cur : Part P D) (q : Nat × J × C) (b : X) : Py (Part P D × X) :=
  if q.1 ≥ 2 then do
    let x4 ← g.pointPos q.2.1
    if g.inVolume x4 ∧ g.inBounds (g.sub ctx.x3 x4) then do
      let a ← g.angleAcc ctx.x3 x4 ctx.x5
      if g.gate a.2 a.1 then do
        let cur' ← cur.register (g.rr ((g.dist ctx.x1 ctx.x3 + g.dist x4 ctx.x3) / 2) a.2 a.1 (q.1 + ctx.f.freq)) ctx.f.ftnr
        .ok (cur', b)
      else .ok (cur, b)
    else .ok (cur, b)
  else .ok (cur, b)

theorem tryNew_body (hadd : g.add = false) {ctx : Ctx P} {b3 : Frame P D I} {cur : Part P D} :
    tryNew g ctx cur b3 = (do let q ← g.assess ctx.x5 b3.img; newBody g ctx cur q b3) := by
  unfold tryNew newBody
  simp only [hadd, Bool.false_eq_true, if_false]
  rfl

theorem newBody_map {X Y : Type} {ctx : Ctx P} {cur : Part P D} {q : Nat × J × C} {b : X} (f : X → Y) :
    newBody g ctx cur q (f b) = (newBody g ctx cur q b).map fun s => (s.1, f s.2) := by
  unfold newBody
  split_ifs
  · cases g.pointPos q.2.1 with
    | error e => rfl
    | ok x4 =>
      simp only [bind, Except.bind]
      split_ifs
      · cases g.angleAcc ctx.x3 x4 ctx.x5 with
        | error e => rfl
        | ok a =>
          simp only
          split_ifs
          · cases cur.register (g.rr ((g.dist ctx.x1 ctx.x3 + g.dist x4 ctx.x3) / 2) a.2 a.1 (q.1 + ctx.f.freq)) ctx.f.ftnr with
            | error e => rfl
            | ok c => rfl
          · rfl
      · rfl
  · rfl

theorem tryNew_onImages (hadd : g.add = false) {ctx : Ctx P} {b3 : Frame P D I'} {cur : Part P D} :
    tryNew g ctx cur (b3.mapImg see) = (tryNew (g.onImages see) ctx cur b3).map fun s => (s.1, s.2.mapImg see) := by
  rw [tryNew_body hadd, tryNew_body (show (g.onImages see).add = false from hadd)]
  change (do let q ← g.assess ctx.x5 (see b3.img); newBody g ctx cur q (b3.mapImg see)) =
    (do let q ← g.assess ctx.x5 (see b3.img); newBody g ctx cur q b3).map fun s : Part P D × Frame P D I' => (s.1, s.2.mapImg see)
  cases g.assess ctx.x5 (see b3.img) with
  | error e => rfl
  | ok q => exact newBody_map _

theorem candOne_onImages (hadd : g.add = false) {x0 : Option P} {x1 x2 : P} {f : Found} {r cur : Part P D} {b3 : Frame P D I'} :
    candOne g x0 x1 x2 f r cur (b3.mapImg see) =
      (candOne (g.onImages see) x0 x1 x2 f r cur b3).map fun s => (s.1, s.2.mapImg see) := by
  unfold candOne
  simp only [tryNew_onImages hadd, lookAhead_onImages]
  change _ = Except.map _ (do
    let wn ← g.search (g.ahead x0 x1 r.x) (g.proj (g.ahead x0 x1 r.x)) (see b3.img)
    let cur1 ← (if wn.length > 1 then lookAhead g ⟨x0, x1, x2, r.x, g.ahead x0 x1 r.x, f⟩ (b3.mapImg see) wn cur else .ok cur)
    let s ← tryNew (g.onImages see) ⟨x0, x1, x2, r.x, g.ahead x0 x1 r.x, f⟩ cur1 b3
    let cur3 ← tryPlain g ⟨x0, x1, x2, r.x, g.ahead x0 x1 r.x, f⟩ s.1
    .ok (cur3, s.2))
  change (do
    let wn ← g.search (g.ahead x0 x1 r.x) (g.proj (g.ahead x0 x1 r.x)) (see b3.img)
    _) = _
  cases g.search (g.ahead x0 x1 r.x) (g.proj (g.ahead x0 x1 r.x)) (see b3.img) with
  | error e => rfl
  | ok wn =>
    simp only [bind, Except.bind]
    cases (if wn.length > 1 then lookAhead g ⟨x0, x1, x2, r.x, g.ahead x0 x1 r.x, f⟩ (b3.mapImg see) wn cur else .ok cur) with
    | error e => rfl
    | ok cur1 =>
      simp only
      cases tryNew (g.onImages see) ⟨x0, x1, x2, r.x, g.ahead x0 x1 r.x, f⟩ cur1 b3 with
      | error e => rfl
      | ok s =>
        simp only [Except.map]
        cases tryPlain g ⟨x0, x1, x2, r.x, g.ahead x0 x1 r.x, f⟩ s.1 with
        | error e => rfl
        | ok cur3 => rfl

theorem candLoop_onImages (hadd : g.add = false) {x0 : Option P} {x1 x2 : P} {b2 : Frame P D I'} :
    ∀ (w : List Found) (cur : Part P D) (b3 : Frame P D I'),
    candLoop g x0 x1 x2 (b2.mapImg see) w cur (b3.mapImg see) =
      (candLoop (g.onImages see) x0 x1 x2 b2 w cur b3).map fun s => (s.1, s.2.mapImg see)
  | [], cur, b3 => rfl
  | f :: w, cur, b3 => by
    unfold candLoop
    by_cases hend : f.ftnr = TR_UNUSED ∨ (b2.parts.length : Int) ≤ f.ftnr
    · rw [if_pos hend, if_pos (by exact hend)]
      rfl
    · rw [if_neg hend, if_neg (by exact hend)]
      change (do
        let r ← pyGetI b2.parts f.ftnr
        _) = _
      cases pyGetI b2.parts f.ftnr with
      | error e => rfl
      | ok r =>
        simp only [bind, Except.bind, candOne_onImages hadd]
        cases candOne (g.onImages see) x0 x1 x2 f r cur b3 with
        | error e => rfl
        | ok s => exact candLoop_onImages hadd w s.1 s.2

theorem tryAdd_onImages (hadd : g.add = false) {x0 : Option P} {x1 x2 : P} {cur : Part P D} {b2 : Frame P D I'} :
    tryAdd g x0 x1 x2 cur (b2.mapImg see) = .ok (cur, b2.mapImg see) ∧
    tryAdd (g.onImages see) x0 x1 x2 cur b2 = .ok (cur, b2) := by
  have h' : (g.onImages see).add = false := hadd
  unfold tryAdd
  cases x0 with
  | none => exact ⟨rfl, rfl⟩
  | some x0 => simp [hadd, h']

theorem searchOne_onImages (hadd : g.add = false) {b0 b1 b2 b3 : Frame P D I'} {h : Nat} :
    searchOne g (b0.mapImg see) (b1.mapImg see) h (b2.mapImg see) (b3.mapImg see) =
      (searchOne (g.onImages see) b0 b1 h b2 b3).map fun s => (s.1, s.2.1.mapImg see, s.2.2.mapImg see) := by
  unfold searchOne
  change (do
    let p ← pyGet b1.parts h
    _) = _
  cases pyGet b1.parts h with
  | error e => rfl
  | ok p =>
    change (do
      let x0 ← prevPos b0 p
      _) = Except.map _ (do
      let x0 ← prevPos b0 p
      _)
    cases prevPos b0 p with
    | error e => rfl
    | ok x0 =>
      have hcp : (g.onImages see).centreProj x0 b1 h (g.centre x0 p.x) =
          g.centreProj x0 (b1.mapImg see) h (g.centre x0 p.x) := by
        cases x0 <;> rfl
      change (do
        let w ← g.search (g.centre x0 p.x) (g.centreProj x0 (b1.mapImg see) h (g.centre x0 p.x)) (see b2.img)
        _) = Except.map _ (do
        let w ← g.search (g.centre x0 p.x) ((g.onImages see).centreProj x0 b1 h (g.centre x0 p.x)) (see b2.img)
        _)
      rw [hcp]
      cases g.search (g.centre x0 p.x) (g.centreProj x0 (b1.mapImg see) h (g.centre x0 p.x)) (see b2.img) with
      | error e => rfl
      | ok w =>
        simp only [bind, Except.bind]
        split_ifs
        · rfl
        · have hcl := candLoop_onImages (see := see) (x0 := x0) (x1 := p.x) (x2 := g.centre x0 p.x) (b2 := b2) hadd w
            { p with cands := [] } b3
          rw [hcl]
          rw [show (g.onImages see).centre x0 p.x = g.centre x0 p.x by cases x0 <;> rfl]
          cases candLoop (g.onImages see) x0 p.x (g.centre x0 p.x) b2 w { p with cands := [] } b3 with
          | error e => rfl
          | ok s =>
            simp only [Except.map]
            rw [(tryAdd_onImages (see := see) hadd).1, (tryAdd_onImages hadd).2]

theorem searchLoop_onImages (hadd : g.add = false) {b0 : Frame P D I'} : ∀ (hs : List Nat) (b1 b2 b3 : Frame P D I'),
    searchLoop g (b0.mapImg see) hs (b1.mapImg see) (b2.mapImg see) (b3.mapImg see) =
      (searchLoop (g.onImages see) b0 hs b1 b2 b3).map fun s => (s.1.mapImg see, s.2.1.mapImg see, s.2.2.mapImg see)
  | [], b1, b2, b3 => rfl
  | h :: hs, b1, b2, b3 => by
    unfold searchLoop
    rw [searchOne_onImages hadd]
    cases searchOne (g.onImages see) b0 b1 h b2 b3 with
    | error e => rfl
    | ok s =>
      obtain ⟨cur, b2', b3'⟩ := s
      exact searchLoop_onImages hadd hs { b1 with parts := b1.parts.set h cur } b2' b3'

theorem stepFrames_onImages (hadd : g.add = false) {b0 b1 b2 b3 : Frame P D I'} :
    stepFrames g (b0.mapImg see) (b1.mapImg see) (b2.mapImg see) (b3.mapImg see) =
      (stepFrames (g.onImages see) b0 b1 b2 b3).map
        fun s => (s.1.mapImg see, s.2.1.mapImg see, s.2.2.1.mapImg see, s.2.2.2) := by
  unfold stepFrames
  have := searchLoop_onImages (see := see) hadd (b0 := b0) (List.range b1.parts.length) b1 b2 b3
  change (do
    let (b1', b2', b3') ← searchLoop g (b0.mapImg see) (List.range b1.parts.length) (b1.mapImg see) (b2.mapImg see) (b3.mapImg see)
    _) = _
  rw [this]
  cases searchLoop (g.onImages see) b0 (List.range b1.parts.length) b1 b2 b3 with
  | error e => rfl
  | ok s =>
    obtain ⟨b1', b2', b3'⟩ := s
    simp only [Except.map, bind, Except.bind, Frame.mapImg]
    cases linkPhase b1'.parts b2'.parts with
    | error e => rfl
    | ok t => rfl

theorem trackBuf_onImages (hadd : g.add = false) (buf : List (Frame P D I')) :
    trackBuf g (buf.map (Frame.mapImg see)) = (trackBuf (g.onImages see) buf).map (List.map (Frame.mapImg see)) := by
  match buf with
  | [b0, b1, b2, b3] =>
    simp only [List.map_cons, List.map_nil, trackBuf, stepFrames_onImages hadd]
    cases stepFrames (g.onImages see) b0 b1 b2 b3 with
    | error e => rfl
    | ok s => rfl
  | [] => rfl
  | [_] => rfl
  | [_, _] => rfl
  | [_, _, _] => rfl
  | _ :: _ :: _ :: _ :: _ :: _ => rfl

end

/-! ### Runs -/

section
variable {F G : Type}

/-- The events with other frames. -/
def Ev.map (φ : F → G) : Ev F → Ev G
  | .read n => .read n
  | .write n f => .write n (φ f)
  | .step n buf => .step n (buf.map φ)

def Run.map (φ : F → G) (r : Run F) : Run G := ⟨r.buf.map φ, r.log.map (Ev.map φ)⟩

theorem writesOf_map (φ : F → G) : ∀ l : List (Ev F), writesOf (l.map (Ev.map φ)) = (writesOf l).map fun w => (w.1, φ w.2)
  | [] => rfl
  | .read n :: l => by simpa [writesOf, Ev.map] using writesOf_map φ l
  | .write n f :: l => by simpa [writesOf, Ev.map] using writesOf_map φ l
  | .step n b :: l => by simpa [writesOf, Ev.map] using writesOf_map φ l

variable {φ : F → G} {disk : Int → F} {n : Int} {r : Run F}

theorem map_next : (r.map φ).next = (r.next).map φ := by
  obtain ⟨buf, log⟩ := r
  cases buf <;> simp [Run.map, Run.next, fbNext]

theorem map_prev : (r.map φ).prev = (r.prev).map φ := by
  obtain ⟨buf, log⟩ := r
  simp only [Run.map, Run.prev, fbPrev, List.getLast?_map]
  cases buf.getLast? <;> simp [List.map_dropLast]

theorem map_readAtEnd : readAtEnd (fun n => φ (disk n)) n (r.map φ) = (readAtEnd disk n r).map φ := by
  simp [readAtEnd, Run.map, Ev.map, List.map_dropLast]

theorem map_writeFromStart : writeFromStart n (r.map φ) = (writeFromStart n r).map (Run.map φ) := by
  obtain ⟨buf, log⟩ := r
  cases buf <;> simp [writeFromStart, Run.map, pyGet, bind, Except.bind, Except.map, Ev.map]

theorem map_forwardStart {first : Int} :
    forwardStart (fun n => φ (disk n)) first (r.map φ) = (forwardStart disk first r).map φ := by
  simp [forwardStart, List.range_succ, map_readAtEnd, map_next, map_prev]

variable {process : List F → Py (List F)} {process' : List G → Py (List G)}

theorem map_forwardStep (hp : ∀ b, process' (b.map φ) = (process b).map (List.map φ)) {last : Int} :
    forwardStep (fun n => φ (disk n)) process' last n (r.map φ) = (forwardStep disk process last n r).map (Run.map φ) := by
  unfold forwardStep
  rw [show (r.map φ).buf = r.buf.map φ from rfl, hp]
  cases process r.buf with
  | error e => rfl
  | ok buf =>
    simp only [Except.map, bind, Except.bind]
    have e : Run.next ⟨buf.map φ, (r.map φ).log ++ [.step n (r.buf.map φ)]⟩ =
        (Run.next (⟨buf, r.log ++ [.step n r.buf]⟩ : Run F)).map φ := by
      rw [← map_next]
      simp [Run.map, Ev.map]
    rw [e, map_writeFromStart]
    cases writeFromStart n (Run.next (⟨buf, r.log ++ [.step n r.buf]⟩ : Run F)) with
    | error e => rfl
    | ok r2 =>
      simp only [Except.map]
      split_ifs
      · rw [map_readAtEnd]
      · rfl

theorem map_forwardSteps (hp : ∀ b, process' (b.map φ) = (process b).map (List.map φ)) {last : Int} :
    ∀ (k : ℕ) (n : Int) (r : Run F),
    forwardSteps (fun n => φ (disk n)) process' last k n (r.map φ) = (forwardSteps disk process last k n r).map (Run.map φ)
  | 0, n, r => rfl
  | k + 1, n, r => by
    unfold forwardSteps
    rw [map_forwardStep hp]
    cases forwardStep disk process last n r with
    | error e => rfl
    | ok r' => exact map_forwardSteps hp k (n + 1) r'

theorem map_forwardRun (hp : ∀ b, process' (b.map φ) = (process b).map (List.map φ)) {first last : Int} {buf : List F} :
    forwardRun (fun n => φ (disk n)) process' first last (buf.map φ) =
      (forwardRun disk process first last buf).map (Run.map φ) := by
  unfold forwardRun
  rw [show (⟨buf.map φ, []⟩ : Run G) = (⟨buf, []⟩ : Run F).map φ from rfl, map_forwardStart, map_forwardSteps hp]
  cases forwardSteps disk process last (last - first).toNat first (forwardStart disk first ⟨buf, []⟩) with
  | error e => rfl
  | ok r =>
    simp only [Except.map, bind, Except.bind, forwardFinish]
    split_ifs
    · rfl
    · rw [map_next, map_writeFromStart]
      rfl

end

end Verif.Track
