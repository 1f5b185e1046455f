/-
C16-C22, C54, C55: link decisions, sequence schedules, frame buffer.
-/
import Verif.Proofs.Back

set_option linter.unusedSectionVars false

namespace Verif.Track
open Verif.Track.Spec

section
variable {P D : Type} [LinearOrder D]

/-! ### C16 -/

/-- C16: the linking phase of a forward step, started on a next frame without back links and on
candidate lists that name existing particles, never raises and makes the links of the two frames
mutually consistent; it moves, adds or removes no particle, does not touch the back links of the
current frame nor the forward links of the next frame. -/
theorem C16_link_phase_mutual (c n : List (Part P D)) (hn : ∀ q ∈ n, q.prev = PREV_NONE)
    (hc : ∀ p ∈ c, p.next = NEXT_NONE)
    (hk : ∀ p ∈ c, ∀ x ∈ p.cands, 0 ≤ x.2 ∧ x.2 < n.length) :
    ∃ c' n' t, linkPhase c n = .ok (c', n', t) ∧ Mutual c' n' ∧ SamePositions c c' ∧
      SamePositions n n' ∧ c'.map Part.prev = c.map Part.prev ∧
      n'.map Part.next = n.map Part.next := by
  obtain ⟨c', n', t, h, -⟩ := linkPhase_spec hn hk
  exact ⟨c', n', t, h, linkPhase_mutual hn (fun p hp _ => hc p hp) hk h⟩

/-- C16: mutually consistent links are one-to-one: no particle has two predecessors, and none has
two successors. -/
theorem C16_one_to_one (c n : List (Part P D)) (h : Mutual c n) :
    (∀ a b k : Nat, PointsTo c a k → PointsTo c b k → a = b) ∧
    (∀ a k l : Nat, PointsBack n k a → PointsBack n l a → k = l) := by
  constructor
  · intro a b k ha hb
    obtain ⟨q, hq, e⟩ := (h.1 a k).1 ha
    obtain ⟨q', hq', e'⟩ := (h.1 b k).1 hb
    rw [hq] at hq'
    cases Option.some.inj hq'
    omega
  · intro a k l hk hl
    obtain ⟨q, hq, e⟩ := (h.1 a k).2 hk
    obtain ⟨q', hq', e'⟩ := (h.1 a l).2 hl
    rw [hq] at hq'
    cases Option.some.inj hq'
    omega

end

section
variable {P J C I D : Type} [Field D] [LinearOrder D]

/-- C16: a full forward run over unlinked frames, whatever the geometry functions return (the
candidate search may only report numbers ≥ -1), leaves on disk a sequence of frames in which every
two consecutive frames agree on their links; the first frame has no back link and the last no
forward link; and every frame still begins with the particles it was read with, at the same
positions. -/
theorem C16_run_mutual (g : Geo P J C I D) (hg : SearchSane g) (disk : Int → Frame P D I)
    (hd : ∀ n, ∀ p ∈ (disk n).parts, p.prev = PREV_NONE ∧ p.next = NEXT_NONE) (first : Int) (L : Nat)
    (a b c d : Frame P D I) (r : Run (Frame P D I))
    (h : forwardRun disk (trackBuf g) first (first + L) [a, b, c, d] = .ok r) :
    (writesOf r.log).length = L + 1 ∧ LinkChain (writesOf r.log) ∧
    (∀ w ∈ writesOf r.log, KeepsPositions (disk w.1) w.2) ∧
    (∀ w ∈ (writesOf r.log).head?, ∀ p ∈ w.2.parts, p.prev = PREV_NONE) ∧
    (∀ w ∈ (writesOf r.log).getLast?, ∀ p ∈ w.2.parts, p.next = NEXT_NONE) :=
  forwardRun_links hg hd h

end

/-! A concrete run: particles on a line, moving right by 1 per frame; the search offers the particle
itself and the one after it. -/

/-- Geometry of the example: one-dimensional positions, everything in bounds. -/
def demoGeo : Geo ℚ Unit Unit Unit ℚ where
  predict a b := 2 * b - a
  predict2 x3 x1 x0 := (5 * x3 - 4 * x1 + x0) / 2
  sub a b := a - b
  dist a b := |a - b|
  proj _ := ()
  projOwn _ _ _ := ()
  search _ _ _ := .ok [⟨0, 4⟩, ⟨1, 3⟩, ⟨-1, 0⟩]
  assess _ _ := .ok (0, (), ())
  pointPos _ := .ok 0
  inVolume _ := true
  inBounds x := decide (|x| < 2)
  angleAcc _ b c := .ok (0, |b - c|)
  addImg _ _ _ := .ok ()
  dacc := 5
  dangle := 100
  lmax := 1
  add := false

def demoDisk (n : Int) : Frame ℚ ℚ Unit :=
  ⟨n, [⟨n, PREV_NONE, NEXT_NONE, [], 0⟩, ⟨n + 1 / 2, PREV_NONE, NEXT_NONE, [], 0⟩], ()⟩

def demoBuf : List (Frame ℚ ℚ Unit) := List.replicate 4 ⟨0, [], ()⟩

/-- Forward links written by the example run. -/
def demoLinks : Option (List (Int × List Int)) :=
  match forwardRun demoDisk (trackBuf demoGeo) 10 13 demoBuf with
  | .ok r => some ((writesOf r.log).map (fun w => (w.1, w.2.parts.map Part.next)))
  | .error _ => none

example : demoLinks = some [(10, [-2, 0]), (11, [-2, 0]), (12, [0, -2]), (13, [-2, -2])] := by
  decide +kernel

example : SearchSane demoGeo := by
  intro x v i w h f hf
  cases h
  simp at hf
  rcases hf with rfl | rfl | rfl <;> decide

example : ∀ n, ∀ p ∈ (demoDisk n).parts, p.prev = PREV_NONE ∧ p.next = NEXT_NONE := by
  intro n p hp
  simp [demoDisk] at hp
  rcases hp with rfl | rfl <;> exact ⟨rfl, rfl⟩

section
variable {P D : Type} [LinearOrder D]

/-! ### C17 -/

/-- C17: after the linking phase a link to `k` is held by the particle with the smallest decision
value among those whose best candidate is `k` (the first of them on a tie); a particle whose best
candidate went to another has no link at all and the other's decision value is no larger. -/
theorem C17_best_wins (c n c' n' : List (Part P D)) (t : Nat) (hn : ∀ q ∈ n, q.prev = PREV_NONE)
    (hc : ∀ p ∈ c, p.next = NEXT_NONE)
    (hk : ∀ p ∈ c, ∀ x ∈ p.cands, 0 ≤ x.2 ∧ x.2 < n.length)
    (h : linkPhase c n = .ok (c', n', t)) :
    (∀ (i k : Nat), PointsTo c' i k → ∃ d, BestAt c i d k ∧
      ∀ j e, BestAt c j e k → d < e ∨ (d = e ∧ i ≤ j)) ∧
    (∀ (i : Nat) (d : D) (k : Int), BestAt c i d k → ¬ PointsTo c' i k →
      PointsTo c' i NEXT_NONE ∧ ∃ j e, j ≠ i ∧ BestAt c j e k ∧ PointsTo c' j k ∧ e ≤ d) := by
  obtain ⟨c1, n1, t1, h1, h2, h3, h4, h5, -, -⟩ := linkPhase_spec hn hk
  rw [h] at h1
  cases h1
  have best : ∀ p : Part P D, p.cands = [] ∨ ∃ d k, BestOf p d k := by
    intro p
    rcases prelim_spec p with ⟨x, -⟩ | ⟨d, k, x1, x2, -⟩
    · exact Or.inl x
    · exact Or.inr ⟨d, k, x1, x2⟩
  constructor
  · rintro i k ⟨p', hp', e⟩
    have hlt := (List.getElem?_eq_some_iff.1 hp').1
    obtain ⟨p, hp⟩ : ∃ p, c[i]? = some p := ⟨_, List.getElem?_eq_getElem (by omega)⟩
    obtain ⟨nx, a1, a2, a3⟩ := h4 i p hp
    rw [hp'] at a1
    cases Option.some.inj a1
    simp only at e
    rcases best p with hb | ⟨d, k', hb⟩
    · have := a2 hb
      rw [hc p (List.mem_of_getElem? hp)] at this
      simp only [NEXT_NONE] at this; omega
    · rcases a3 d k' hb with ⟨w, e'⟩ | ⟨-, e'⟩
      · rw [e] at e'
        rw [← e'] at w
        exact (wins_iff c i k).1 w
      · simp only [NEXT_NONE] at e'; omega
  · rintro i d k ⟨p, hp, hb⟩ hnp
    obtain ⟨nx, a1, a2, a3⟩ := h4 i p hp
    rcases a3 d k hb with ⟨w, e⟩ | ⟨w, e⟩
    · exact absurd ⟨_, a1, e⟩ hnp
    · refine ⟨⟨_, a1, e⟩, ?_⟩
      obtain ⟨x1, x2⟩ := hk p (List.mem_of_getElem? hp) _ hb.1
      simp only at x1 x2
      obtain ⟨kn, rfl⟩ := Int.eq_ofNat_of_zero_le x1
      obtain ⟨q, hq⟩ : ∃ q, n[kn]? = some q := ⟨_, List.getElem?_eq_getElem (by omega)⟩
      obtain ⟨pv, b1, b2⟩ := h5 kn q hq
      rcases b2 with ⟨-, b2⟩ | ⟨j, -, b3⟩
      · exact absurd ⟨p, hp, hb⟩ (b2 i d)
      · obtain ⟨e', ⟨pj, hpj, hbj⟩, hmin⟩ := (wins_iff c j kn).1 b3
        obtain ⟨nx', c1', -, c3⟩ := h4 j pj hpj
        refine ⟨j, e', ?_, ⟨pj, hpj, hbj⟩, ?_, ?_⟩
        · rintro rfl; exact w b3
        · rcases c3 e' kn hbj with ⟨-, y⟩ | ⟨y, -⟩
          · exact ⟨_, c1', y⟩
          · exact absurd b3 y
        · rcases hmin i d ⟨p, hp, hb⟩ with y | ⟨y, -⟩
          · exact y.le
          · exact y.le

/-! ### C18 -/

/-- C18 (partial): the link count of a step is never below the number of links it leaves, and is
equal to it when no two particles have the same best candidate. -/
theorem C18_link_count_partial (c n c' n' : List (Part P D)) (t : Nat)
    (hn : ∀ q ∈ n, q.prev = PREV_NONE)
    (hk : ∀ p ∈ c, ∀ x ∈ p.cands, 0 ≤ x.2 ∧ x.2 < n.length)
    (h : linkPhase c n = .ok (c', n', t)) :
    numLinks c' ≤ t ∧
    ((∀ k h d h' d', BestAt c h d k → BestAt c h' d' k → h = h') → t = numLinks c') := by
  obtain ⟨c1, n1, t1, h1, h2, h3, h4, h5, h6, h7⟩ := linkPhase_spec hn hk
  rw [h] at h1
  cases h1
  exact ⟨h6, h7⟩

end

/-- Two particles whose only candidate is particle 0, the second with the better value. -/
def stealC : List (Part Unit ℚ) :=
  [⟨(), PREV_NONE, NEXT_NONE, [(2, 0)], 0⟩, ⟨(), PREV_NONE, NEXT_NONE, [(1, 0)], 0⟩]

def stealN : List (Part Unit ℚ) := [⟨(), PREV_NONE, NEXT_NONE, [], 0⟩]

example : (∀ q ∈ stealN, q.prev = PREV_NONE) ∧ (∀ p ∈ stealC, p.next = NEXT_NONE) ∧
    (∀ p ∈ stealC, ∀ x ∈ p.cands, 0 ≤ x.2 ∧ x.2 < stealN.length) := by decide

/-- C18 is false: when the second particle takes over a link that the first already held, both are
counted: two links are reported where one exists. -/
theorem C18_refuted : ∃ c' n', linkPhase stealC stealN = .ok (c', n', 2) ∧ numLinks c' = 1 := by
  refine ⟨[⟨(), PREV_NONE, NEXT_NONE, [(2, 0)], 2⟩, ⟨(), PREV_NONE, 0, [(1, 0)], 1⟩],
    [⟨(), 1, NEXT_NONE, [], 0⟩], ?_, ?_⟩ <;> decide +kernel

/-! ### C19 -/

section
variable {F : Type}

/-- C19: rotating forward and back restores the buffer, in either order; rotation neither drops nor
duplicates a frame. -/
theorem C19_rotation_inverse (b : List F) :
    fbPrev (fbNext b) = b ∧ fbNext (fbPrev b) = b ∧ (fbNext b).Perm b ∧ (fbPrev b).Perm b := by
  have h1 : fbPrev (fbNext b) = b := by
    cases b with
    | nil => rfl
    | cons x xs => simp [fbNext, fbPrev]
  have h2 : fbNext (fbPrev b) = b := by
    rcases List.eq_nil_or_concat b with rfl | ⟨l, x, rfl⟩
    · rfl
    · simp [fbNext, fbPrev]
  have h3 : ∀ b : List F, (fbNext b).Perm b := by
    intro b
    cases b with
    | nil => simp [fbNext]
    | cons x xs => simp [fbNext]
  refine ⟨h1, h2, h3 b, ?_⟩
  have := h3 (fbPrev b)
  rw [h2] at this
  exact this.symm

/-- C19: position `i` after any number `k` of forward rotations holds what position `i + k` (modulo
the buffer length) held; in particular `fb_next` moves position `i+1` to `i`, and rotating as often
as the buffer is long restores it. -/
theorem C19_rotation_index (b : List F) (k i : Nat) (hi : i < b.length) :
    (fbNext^[k] b)[i]? = b[(i + k) % b.length]? ∧ fbNext^[b.length] b = b := by
  have key : ∀ k i, i < b.length → (fbNext^[k] b)[i]? = b[(i + k) % b.length]? ∧
      (fbNext^[k] b).length = b.length := by
    intro k
    induction k with
    | zero => intro i hi; simp [Nat.mod_eq_of_lt hi]
    | succ k ih =>
      intro i hi
      rw [Function.iterate_succ_apply']
      have hl := (ih i hi).2
      generalize hB : fbNext^[k] b = B at *
      cases B with
      | nil => simp at hl; omega
      | cons x xs =>
        simp only [fbNext]
        refine ⟨?_, by simpa using hl⟩
        simp only [List.length_cons] at hl
        by_cases hx : i < xs.length
        · rw [List.getElem?_append_left hx]
          have := (ih (i + 1) (by omega)).1
          rw [List.getElem?_cons_succ] at this
          rw [this, show i + 1 + k = i + (k + 1) by omega]
        · have hi' : i = xs.length := by omega
          subst hi'
          rw [List.getElem?_append_right (le_refl _), Nat.sub_self]
          have := (ih 0 (by omega)).1
          rw [List.getElem?_cons_zero] at this
          simp only [List.getElem?_cons_zero]
          rw [this, show xs.length + (k + 1) = 0 + k + b.length by omega, Nat.add_mod_right]
  refine ⟨(key k i hi).1, ?_⟩
  apply List.ext_getElem?
  intro j
  by_cases hj : j < b.length
  · rw [(key _ j hj).1, Nat.add_mod_right, Nat.mod_eq_of_lt hj]
  · rw [List.getElem?_eq_none (by have := (key b.length i hi).2; omega),
      List.getElem?_eq_none (by omega)]

example : (fbNext^[3] [10, 11, 12, 13])[2]? = some 11 := by decide

end

/-! ### C20 -/

section
variable {P J C I D : Type} [Field D] [LinearOrder D]

theorem trackBuf_no {g : Geo P J C I D} (hg : SearchSane g) :
    ∀ b b', trackBuf g b = .ok b' → b'.map Frame.no = b.map Frame.no := by
  intro b b' h
  obtain ⟨b0, b1, b2, b3, b1', b2', b3', k, rfl, rfl, hs⟩ := trackBuf_spec h
  obtain ⟨h1, h2, h3⟩ := stepFrames_no hg hs
  simp [h1, h2, h3]

/-- C20: a full forward run from frame `first` over `L ≥ 1` steps reads the frames first, first+1,
.., last = first+L in order, once each (three at least: a one-step run also reads first+2); writes
first .. last in order, once each, each file holding the frame read from that number; computes the
steps first .. last-1 in order; and in step `n` the buffer positions 1, 2, 3 hold the frames n, n+1
and - if it was read at all - n+2. -/
theorem C20_forward_schedule (g : Geo P J C I D) (hg : SearchSane g) (disk : Int → Frame P D I)
    (hd : ∀ n, (disk n).no = n) (first : Int) (L : Nat)
    (a b c d : Frame P D I) (r : Run (Frame P D I))
    (h : forwardRun disk (trackBuf g) first (first + L) [a, b, c, d] = .ok r) :
    readsOf r.log = intRange first (max (L + 1) 3) ∧
    (writesOf r.log).map (fun w => (w.1, w.2.no)) =
      (intRange first (L + 1)).map (fun n => (n, n)) ∧
    (stepsOf r.log).map Prod.fst = intRange first L ∧
    ∀ n bf, (n, bf) ∈ stepsOf r.log → ∃ x y z w, bf = [x, y, z, w] ∧ y.no = n ∧
      z.no = n + 1 ∧ (n + 2 ≤ first + max L 2 → w.no = n + 2) :=
  (forwardRun_schedule (no := Frame.no) hd (trackBuf_no hg) h).2

/-- C20: a run over a single frame (first = last) ends in a ZeroDivisionError and writes nothing. -/
theorem C20_single_frame_raises (g : Geo P J C I D) (disk : Int → Frame P D I) (first : Int)
    (buf : List (Frame P D I)) :
    forwardRun disk (trackBuf g) first first buf = .error .zeroDivision := by
  simp [forwardRun, forwardSteps, forwardFinish, bind, Except.bind]

end

example : (match forwardRun demoDisk (trackBuf demoGeo) 10 13 demoBuf with
    | .ok r => readsOf r.log
    | .error _ => []) = [10, 11, 12, 13] := by decide +kernel

/-! ### C21 -/

section
variable {F : Type}

/-- C21 (partial): a backward run from `last` down to `first = last - L`, `L ≥ 2`, writes the frames
last-1, .., first+1 in this order, each under its own number; then one more frame (see
C21_refuted). `no` tells the number of a frame's contents; `process` is any computing step that
leaves the frames in their places. -/
theorem C21_backward_writes_partial (no : F → Int) (disk : Int → F) (process : List F → Py (List F))
    (last : Int) (L : Nat) (a b c d : F) (r : Run F) (hL : 2 ≤ L) (hd : ∀ n, no (disk n) = n)
    (hp : ∀ b b', process b = .ok b' → b'.map no = b.map no)
    (h : backRun disk process (last - L) last [a, b, c, d] = .ok r) :
    ((writesOf r.log).map (fun w => (w.1, no w.2))).take (L - 1) =
      (List.range (L - 1)).map (fun (j : Nat) => (last - 1 - (j : Int), last - 1 - (j : Int))) ∧
    (writesOf r.log).length = L := by
  have := backRun_schedule hL hd hp h
  rw [this]
  refine ⟨by rw [List.take_append_of_le_length (by simp)]; simp, ?_⟩
  have := congrArg List.length this
  simp at this
  omega

/-- C21 is false, in every backward run that completes: the last write puts the contents of frame
`first` into the file of frame `first + 1`, destroying what was just written there; frame `first`
itself is never written. -/
theorem C21_refuted (no : F → Int) (disk : Int → F) (process : List F → Py (List F))
    (last : Int) (L : Nat) (a b c d : F) (r : Run F) (hL : 2 ≤ L) (hd : ∀ n, no (disk n) = n)
    (hp : ∀ b b', process b = .ok b' → b'.map no = b.map no)
    (h : backRun disk process (last - L) last [a, b, c, d] = .ok r) :
    (∃ w, (writesOf r.log).getLast? = some w ∧ w.1 = last - L + 1 ∧ no w.2 = last - L) ∧
    ∀ w ∈ writesOf r.log, w.1 ≠ last - L := by
  have hs := backRun_schedule hL hd hp h
  constructor
  · have := congrArg List.getLast? hs
    rw [List.getLast?_append] at this
    simp only [List.getLast?_map, List.getLast?_singleton, Option.some_or] at this
    rw [Option.map_eq_some_iff] at this
    obtain ⟨w, hw, e⟩ := this
    simp only [Prod.mk.injEq] at e
    exact ⟨w, hw, e.1, e.2⟩
  · intro w hw hbad
    have : (w.1, no w.2) ∈ (writesOf r.log).map (fun w => (w.1, no w.2)) := List.mem_map_of_mem hw
    rw [hs, List.mem_append] at this
    rcases this with h1 | h1
    · rw [List.mem_map] at h1
      obtain ⟨j, hj, e⟩ := h1
      rw [List.mem_range] at hj
      simp only [Prod.mk.injEq] at e
      omega
    · simp at h1; omega

/-- A backward run that completes (frames are their own numbers, the step computes nothing). -/
example : (match backRun (F := Int) id (fun b => .ok b) 10 14 [0, 0, 0, 0] with
    | .ok r => writesOf r.log
    | .error _ => []) = [(13, 13), (12, 12), (11, 11), (11, 10)] := by decide

end

/-! ### C22 -/

section
variable {P D : Type} [LinearOrder D]

/-- C22: the backward linking phase, whatever its acceptance test answers, if it returns: it leaves
every particle of the earlier frame `n` that already had a forward link exactly as it was, leaves the
back link of every particle without candidates as it was, moves no particle, and keeps consistent
links consistent. Every particle of `c` with candidates has no back link to begin with. -/
theorem C22_backlink_preserves (accept : Nat → Int → Py Bool) (c n c' n' : List (Part P D))
    (hk : ∀ p ∈ c, ∀ x ∈ p.cands, 0 ≤ x.2)
    (hfree : ∀ p ∈ c, p.cands ≠ [] → p.prev = PREV_NONE)
    (h : backLinkPhase accept c n = .ok (c', n')) :
    (∀ (k : Nat) q, n[k]? = some q → q.next ≠ NEXT_NONE → n'[k]? = some q) ∧
    (∀ (i : Nat) p, c[i]? = some p → ∃ p', c'[i]? = some p' ∧ p'.x = p.x ∧ p'.next = p.next ∧
      (p'.prev = p.prev ∨ ∃ (d : D) (k : Nat), BestOf p d k ∧ p'.prev = k ∧ p.prev = PREV_NONE ∧
        PointsTo n k NEXT_NONE ∧ PointsTo n' k i)) ∧
    (∀ (k : Nat) q, n[k]? = some q → ∃ q', n'[k]? = some q' ∧ q'.x = q.x ∧ q'.prev = q.prev ∧
      (q'.next = q.next ∨ ∃ i : Nat, q.next = NEXT_NONE ∧ q'.next = i ∧ PointsBack c' i k)) ∧
    (Mutual n c → Mutual n' c') := by
  have hB := backLinkPhase_spec hk h
  have hbest : ∀ (p : Part P D) d (k : Int), (backPrelim p).cands.head? = some (d, k) →
      BestOf p d k := by
    intro p d k hh
    have hs := sortPairs_sorted p.cands
    have hp := sortPairs_perm p.cands
    simp only [backPrelim] at hh
    cases hl : sortPairs p.cands with
    | nil => rw [hl] at hh; simp at hh
    | cons y ys =>
      rw [hl] at hh hs hp
      simp at hh
      subst hh
      refine ⟨hp.mem_iff.1 (by simp), ?_⟩
      intro x hx
      have hx := hp.mem_iff.2 hx
      rw [List.mem_cons] at hx
      rcases hx with rfl | hx
      · exact Or.inr ⟨rfl, le_refl _⟩
      · exact (List.pairwise_cons.1 hs).1 x hx
  have hcur : ∀ (i : Nat) p, c[i]? = some p → ∃ p', c'[i]? = some p' ∧ p'.x = p.x ∧
      p'.next = p.next ∧
      (p'.prev = p.prev ∨ ∃ (d : D) (k : Nat), BestOf p d k ∧ p'.prev = k ∧ p.prev = PREV_NONE ∧
        PointsTo n k NEXT_NONE ∧ PointsTo n' k i) := by
    intro i p hp
    obtain ⟨pv, fin, a, -, e⟩ := hB.cur i (backPrelim p) (by rw [List.getElem?_map, hp]; rfl)
    refine ⟨_, a, rfl, rfl, ?_⟩
    rcases e with e | ⟨k, d, q, e1, e2, e3, e4, e5, -⟩
    · exact Or.inl e
    · have hb := hbest p d k e2
      have hne : p.cands ≠ [] := by intro h0; have := hb.1; rw [h0] at this; simp at this
      exact Or.inr ⟨d, k, hb, e1, hfree p (List.mem_of_getElem? hp) hne, ⟨q, e3, e4⟩, ⟨_, e5, rfl⟩⟩
  have hnxt : ∀ (k : Nat) q, n[k]? = some q → ∃ q', n'[k]? = some q' ∧ q'.x = q.x ∧
      q'.prev = q.prev ∧
      (q'.next = q.next ∨ ∃ i : Nat, q.next = NEXT_NONE ∧ q'.next = i ∧ PointsBack c' i k) := by
    intro k q hq
    obtain ⟨nx, a, e⟩ := hB.nxt k q hq
    refine ⟨_, a, rfl, rfl, ?_⟩
    rcases e with e | ⟨e0, i, p, e1, e2, e3, e4, -⟩
    · exact Or.inl e
    · exact Or.inr ⟨i, e0, e2, ⟨p, e3, e4⟩⟩
  have hcl : c'.length = c.length := by rw [hB.clen]; simp
  have hnl := hB.nlen
  refine ⟨?_, hcur, hnxt, ?_⟩
  · intro k q hq hne
    obtain ⟨nx, a, e⟩ := hB.nxt k q hq
    rcases e with e | ⟨e, -⟩
    · rw [a, e]
    · exact absurd e hne
  · rintro ⟨m1, m2, m3⟩
    refine ⟨?_, ?_, ?_⟩
    · intro k i
      constructor
      · rintro ⟨q', hq', e⟩
        have hlt := (List.getElem?_eq_some_iff.1 hq').1
        obtain ⟨q, hq⟩ : ∃ q, n[k]? = some q := ⟨_, List.getElem?_eq_getElem (by omega)⟩
        obtain ⟨q'', h1, -, -, h4⟩ := hnxt k q hq
        rw [hq'] at h1
        cases Option.some.inj h1
        rcases h4 with h4 | ⟨i', -, h4, h5⟩
        · rw [h4] at e
          obtain ⟨p, hp, hpe⟩ := (m1 k i).1 ⟨q, hq, e⟩
          obtain ⟨p', hp', -, -, g⟩ := hcur i p hp
          refine ⟨p', hp', ?_⟩
          rcases g with g | ⟨d, k', -, -, g, -⟩
          · rw [g, hpe]
          · rw [hpe] at g; simp only [PREV_NONE] at g; omega
        · have : i' = i := by omega
          subst this; exact h5
      · rintro ⟨p', hp', e⟩
        have hlt := (List.getElem?_eq_some_iff.1 hp').1
        obtain ⟨p, hp⟩ : ∃ p, c[i]? = some p := ⟨_, List.getElem?_eq_getElem (by omega)⟩
        obtain ⟨p'', h1, -, -, h4⟩ := hcur i p hp
        rw [hp'] at h1
        cases Option.some.inj h1
        rcases h4 with h4 | ⟨d, k', -, h4, -, -, h5⟩
        · rw [h4] at e
          obtain ⟨q, hq, hqe⟩ := (m1 k i).2 ⟨p, hp, e⟩
          obtain ⟨q', hq', -, -, g⟩ := hnxt k q hq
          refine ⟨q', hq', ?_⟩
          rcases g with g | ⟨i', g, -⟩
          · rw [g, hqe]
          · rw [hqe] at g; simp only [NEXT_NONE] at g; omega
        · have : k' = k := by omega
          subst this; exact h5
    · intro q' hq'
      obtain ⟨k, hk'⟩ := List.mem_iff_getElem?.1 hq'
      have hlt := (List.getElem?_eq_some_iff.1 hk').1
      obtain ⟨q, hq⟩ : ∃ q, n[k]? = some q := ⟨_, List.getElem?_eq_getElem (by omega)⟩
      obtain ⟨q'', h1, -, -, h4⟩ := hnxt k q hq
      rw [hk'] at h1
      cases Option.some.inj h1
      rcases h4 with h4 | ⟨i, -, h4, p, h5, -⟩
      · rw [h4, hcl]; exact m2 q (List.mem_of_getElem? hq)
      · exact Or.inr ⟨i, h4, (List.getElem?_eq_some_iff.1 h5).1⟩
    · intro p' hp'
      obtain ⟨i, hi⟩ := List.mem_iff_getElem?.1 hp'
      have hlt := (List.getElem?_eq_some_iff.1 hi).1
      obtain ⟨p, hp⟩ : ∃ p, c[i]? = some p := ⟨_, List.getElem?_eq_getElem (by omega)⟩
      obtain ⟨p'', h1, -, -, h4⟩ := hcur i p hp
      rw [hi] at h1
      cases Option.some.inj h1
      rcases h4 with h4 | ⟨d, k, -, h4, -, -, q, h5, -⟩
      · rw [h4, hnl]; exact m3 p (List.mem_of_getElem? hp)
      · exact Or.inr ⟨k, h4, (List.getElem?_eq_some_iff.1 h5).1⟩

end

/-- A backward linking phase in which the first particle takes the free particle 1 and the second
finds particle 0 already linked. -/
def backC : List (Part Unit ℚ) :=
  [⟨(), PREV_NONE, 0, [(2, 0), (1, 1)], 0⟩, ⟨(), PREV_NONE, 1, [(1, 0)], 0⟩, ⟨(), 0, 2, [], 0⟩]

def backN : List (Part Unit ℚ) := [⟨(), PREV_NONE, 2, [], 0⟩, ⟨(), PREV_NONE, NEXT_NONE, [], 0⟩]

example : (∀ p ∈ backC, ∀ x ∈ p.cands, 0 ≤ x.2) ∧ (∀ p ∈ backC, p.cands ≠ [] → p.prev = PREV_NONE) ∧
    (match backLinkPhase (fun _ _ => .ok true) backC backN with
      | .ok (c, n) => (c.map Part.prev, n.map Part.next)
      | .error _ => ([], [])) = ([1, -1, 0], [2, 0]) := by decide +kernel

/-! ### C54 -/

/-- C54: `sort` with `1 ≤ n` entries (both lists at least that long) returns lists of the same
lengths, whose first `n` pairs are a reordering of the original pairs in non-decreasing order (ties
by index), and whose tails are untouched. With nothing to sort it raises ValueError. -/
theorem C54_sort {D : Type} [LinearOrder D] (n : Nat) (a : List D) (b : List Int)
    (ha : n ≤ a.length) (hb : n ≤ b.length) :
    (n = 0 → sortN n a b = .error .valueError) ∧
    (0 < n → ∃ a' b', sortN n a b = .ok (a', b') ∧ a'.length = a.length ∧ b'.length = b.length ∧
      a'.drop n = a.drop n ∧ b'.drop n = b.drop n ∧
      ((a'.take n).zip (b'.take n)).Perm ((a.take n).zip (b.take n)) ∧
      ((a'.take n).zip (b'.take n)).Pairwise
        (fun x y => x.1 < y.1 ∨ (x.1 = y.1 ∧ x.2 ≤ y.2))) := by
  have hp := sortPairs_perm ((a.take n).zip (b.take n))
  have hs := sortPairs_sorted ((a.take n).zip (b.take n))
  have hl : (sortPairs ((a.take n).zip (b.take n))).length = n := by
    rw [hp.length_eq]; simp; omega
  constructor
  · rintro rfl
    unfold sortN
    simp [sortPairs]
  · intro hn
    unfold sortN
    simp only
    rw [if_neg (by intro h0; rw [h0] at hl; simp at hl; omega)]
    generalize sortPairs ((a.take n).zip (b.take n)) = ps at *
    refine ⟨_, _, rfl, by simp [hl]; omega, by simp [hl]; omega, ?_, ?_, ?_⟩
    · rw [List.drop_left' (by simp [hl])]
    · rw [List.drop_left' (by simp [hl])]
    · rw [List.take_left' (by simp [hl]), List.take_left' (by simp [hl])]
      have : (ps.map Prod.fst).zip (ps.map Prod.snd) = ps := by
        rw [List.zip_map', ]; simp
      rw [this]
      exact ⟨hp, hs⟩

example : sortN 3 [3, 1, 2, 0, 0] [7, 8, 9, -999, -999] =
    .ok ([1, 2, 3, 0, 0], [8, 9, 7, -999, -999]) := by decide

/-! ### C55 -/

/-- What a particle's slots mean: the first `inlist` pairs. -/
def Slots.pairs {D : Type} (s : Slots D) : List (D × Int) :=
  (s.decis.take s.inlist).zip (s.link.take s.inlist)

/-- C55: for any registration history on a particle with `m` slots, as long as at most `m`
candidates are registered every registration succeeds and the stored pairs are exactly the
registered ones in order; one more raises IndexError. Storage never grows or shrinks. -/
theorem C55_registration {D : Type} (m : Nat) (s : Slots D) (hd : s.decis.length = m)
    (hl : s.link.length = m) (h0 : s.inlist = 0) (hist : List (D × Int)) :
    (hist.length ≤ m → ∃ s', hist.foldlM (fun s x => s.register x.1 x.2) s = .ok s' ∧
      s'.pairs = hist ∧ s'.inlist = hist.length ∧ s'.decis.length = m ∧ s'.link.length = m) ∧
    (m < hist.length → hist.foldlM (fun s x => s.register x.1 x.2) s = .error .indexError) := by
  have one : ∀ (s : Slots D) r k, s.decis.length = m → s.link.length = m →
      (s.inlist < m → ∃ s', s.register r k = .ok s' ∧ s'.pairs = s.pairs ++ [(r, k)] ∧
        s'.inlist = s.inlist + 1 ∧ s'.decis.length = m ∧ s'.link.length = m) ∧
      (¬ s.inlist < m → s.register r k = .error .indexError) := by
    intro s r k h1 h2
    constructor
    · intro hi
      unfold Slots.register
      rw [if_pos (by omega), if_pos (by omega)]
      refine ⟨_, rfl, ?_, rfl, by simp [h1], by simp [h2]⟩
      unfold Slots.pairs
      simp only
      rw [List.take_add_one, List.take_add_one, List.take_set_of_le (by omega),
        List.take_set_of_le (by omega)]
      rw [List.getElem?_set_self (by omega), List.getElem?_set_self (by omega)]
      simp only [Option.toList_some]
      rw [List.zip_append (by simp; omega)]
      rfl
    · intro hi
      unfold Slots.register
      rw [if_neg (by omega)]
  have key : ∀ (hist : List (D × Int)) (s : Slots D), s.decis.length = m → s.link.length = m →
      s.inlist ≤ m →
      (s.inlist + hist.length ≤ m → ∃ s', hist.foldlM (fun s x => s.register x.1 x.2) s = .ok s' ∧
        s'.pairs = s.pairs ++ hist ∧ s'.inlist = s.inlist + hist.length ∧ s'.decis.length = m ∧
        s'.link.length = m) ∧
      (m < s.inlist + hist.length →
        hist.foldlM (fun s x => s.register x.1 x.2) s = .error .indexError) := by
    intro hist
    induction hist with
    | nil =>
      intro s h1 h2 h3
      exact ⟨fun _ => ⟨s, rfl, by simp, by simp, h1, h2⟩, fun h => by simp at h; omega⟩
    | cons x xs ih =>
      intro s h1 h2 h3
      obtain ⟨o1, o2⟩ := one s x.1 x.2 h1 h2
      simp only [List.length_cons, List.foldlM_cons]
      by_cases hi : s.inlist < m
      · obtain ⟨s1, e1, e2, e3, e4, e5⟩ := o1 hi
        obtain ⟨i1, i2⟩ := ih s1 e4 e5 (by omega)
        rw [e1]
        constructor
        · intro hle
          obtain ⟨s', g1, g2, g3, g4, g5⟩ := i1 (by omega)
          exact ⟨s', g1, by rw [g2, e2]; simp, by omega, g4, g5⟩
        · intro hlt
          exact i2 (by omega)
      · rw [o2 hi]
        exact ⟨fun hle => by omega, fun _ => rfl⟩
  obtain ⟨k1, k2⟩ := key hist s hd hl (by omega)
  constructor
  · intro h
    obtain ⟨s', g1, g2, g3, g4, g5⟩ := k1 (by omega)
    refine ⟨s', g1, ?_, by omega, g4, g5⟩
    rw [g2]; simp [Slots.pairs, h0]
  · intro h; exact k2 (by omega)

example : [((2 : ℚ), (5 : Int)), (1, 6)].foldlM (fun s x => s.register x.1 x.2)
    (⟨[0, 0, 0], [-999, -999, -999], 0⟩ : Slots ℚ) =
    .ok ⟨[2, 1, 0], [5, 6, -999], 2⟩ := by decide +kernel

/-- C55, for a particle of the tracker: whatever candidates are registered on a particle that has
none, up to 80 of them are stored, in order, with everything else of the particle unchanged; the
81st raises IndexError. -/
theorem C55_particle {P D : Type} (p : Part P D) (hp : p.cands = []) (hist : List (D × Int)) :
    (hist.length ≤ 80 → hist.foldlM (fun p x => p.register x.1 x.2) p =
      .ok { p with cands := hist }) ∧
    (80 < hist.length → hist.foldlM (fun p x => p.register x.1 x.2) p = .error .indexError) := by
  have key : ∀ (hist : List (D × Int)) (q : Part P D), q.cands.length ≤ 80 →
      (q.cands.length + hist.length ≤ 80 → hist.foldlM (fun p x => p.register x.1 x.2) q =
        .ok { q with cands := q.cands ++ hist }) ∧
      (80 < q.cands.length + hist.length →
        hist.foldlM (fun p x => p.register x.1 x.2) q = .error .indexError) := by
    intro hist
    induction hist with
    | nil =>
      intro q hq
      refine ⟨fun _ => ?_, fun h => absurd h (by simp; omega)⟩
      simp only [List.foldlM_nil, List.append_nil]
      rfl
    | cons x xs ih =>
      intro q hq
      simp only [List.foldlM_cons, List.length_cons]
      by_cases hl : q.cands.length < 80
      · have e : q.register x.1 x.2 = .ok { q with cands := q.cands ++ [(x.1, x.2)] } := by
          unfold Part.register
          exact if_pos hl
        rw [e]
        obtain ⟨i1, i2⟩ := ih { q with cands := q.cands ++ [(x.1, x.2)] } (by simp; omega)
        constructor
        · intro h
          refine (i1 (by simp; omega)).trans ?_
          simp
        · intro h
          exact i2 (by simp; omega)
      · have e : q.register x.1 x.2 = .error .indexError := by
          unfold Part.register
          exact if_neg hl
        rw [e]
        exact ⟨fun h => by omega, fun _ => rfl⟩
  obtain ⟨k1, k2⟩ := key hist p (by simp [hp])
  rw [hp] at k1 k2
  exact ⟨fun h => by simpa using k1 (by simpa using h), fun h => k2 (by simpa using h)⟩

example : [((2 : ℚ), (5 : Int)), (1, 6)].foldlM (fun p x => p.register x.1 x.2)
    (⟨(), -1, -2, [], 0⟩ : Part Unit ℚ) = .ok ⟨(), -1, -2, [(2, 5), (1, 6)], 0⟩ := by
  decide +kernel

example : (List.replicate 81 ((1 : ℚ), (7 : Int))).foldlM (fun p x => p.register x.1 x.2)
    (⟨(), -1, -2, [], 0⟩ : Part Unit ℚ) = .error .indexError :=
  (C55_particle _ rfl _).2 (by simp)

end Verif.Track
