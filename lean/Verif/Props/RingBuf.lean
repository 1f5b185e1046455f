/-
C117: the frame buffer is a queue.
-/
import Verif.Spec.RingBuf
import Verif.Props.Linking
import Mathlib.Tactic.Ring

namespace Verif.Ring
open Verif.Track Spec

variable {F : Type}

/-- The ring holds the queue `q`. -/
structure Rep (b : Buf F) (cap : ℕ) (q : List F) : Prop where
  len : b.bufLen = cap
  room : b.buf.length = cap
  size : b.size = q.length
  fits : q.length ≤ cap
  head : b.head < cap ∨ cap = 0 ∧ b.head = 0
  items : ∀ i < q.length, b.buf[(b.head + i) % cap]? = q[i]?

theorem modne {h s i cap : ℕ} (hi : i < s) (hs : s < cap) : (h + i) % cap ≠ (h + s) % cap := by
  intro e
  have h1 : (i : ℕ) ≡ s [MOD cap] := Nat.ModEq.add_left_cancel' h e
  have h2 := h1
  rw [Nat.ModEq, Nat.mod_eq_of_lt (hi.trans hs), Nat.mod_eq_of_lt hs] at h2
  omega

theorem rep_push {b : Buf F} {cap : ℕ} {q : List F} (h : Rep b cap q) (x : F) :
    ∃ b', push b x = .ok b' ∧ Rep b' cap (qstep cap q (.push x)).1 := by
  unfold push
  by_cases hs : q.length < cap
  · have hm : (b.head + b.size) % cap < cap := Nat.mod_lt _ (by omega)
    rw [h.len, h.room, if_pos (by rw [h.size]; exact hs), if_pos hm]
    refine ⟨_, rfl, ?_⟩
    simp only [qstep, if_pos hs]
    refine ⟨rfl, by simpa using h.room, by simp [h.size], by simp; omega, h.head, fun i hi => ?_⟩
    simp only [List.length_append, List.length_singleton] at hi
    by_cases hq : i < q.length
    · rw [List.getElem?_append_left hq, ← h.items i hq, h.size]
      exact List.getElem?_set_ne (Ne.symm (modne hq hs))
    · have : i = q.length := by omega
      subst this
      rw [List.getElem?_append_right le_rfl, h.size]
      rw [List.getElem?_set_self (by rw [h.room, ← h.size]; exact hm)]
      simp
  · rw [h.len, if_neg (by rw [h.size]; exact hs)]
    refine ⟨_, rfl, ?_⟩
    simp only [qstep, if_neg hs]
    exact h

theorem rep_pop {b : Buf F} {cap : ℕ} {q : List F} (h : Rep b cap q) :
    ∃ b', pop b = .ok (b', q.head?) ∧ Rep b' cap q.tail := by
  unfold pop
  cases q with
  | nil =>
    rw [if_neg (by rw [h.size]; simp)]
    exact ⟨_, rfl, h⟩
  | cons x q =>
    rw [if_pos (by rw [h.size]; simp)]
    have hcap : 0 < cap := lt_of_lt_of_le (by simp) h.fits
    have hh : b.head < cap := by rcases h.head with h1 | ⟨h1, -⟩ <;> omega
    have h0 := h.items 0 (by simp)
    rw [Nat.add_zero, Nat.mod_eq_of_lt hh] at h0
    simp only [pyGet, h0, List.getElem?_cons_zero, bind, Except.bind]
    refine ⟨_, rfl, h.len, h.room, by simp [h.size], by have := h.fits; simp at this ⊢; omega, ?_, fun i hi => ?_⟩
    · left
      rw [h.len]
      exact Nat.mod_lt _ hcap
    · have := h.items (i + 1) (by simpa using hi)
      simp only [List.getElem?_cons_succ] at this
      rw [List.tail_cons, ← this]
      show b.buf[((b.head + 1) % b.bufLen + i) % cap]? = _
      rw [h.len, Nat.mod_add_mod]
      congr 2
      ring

theorem fbNext_eq (l : List F) : fbNext l = l.tail ++ l.head?.toList := by
  cases l <;> simp [fbNext]

theorem fbPrev_eq (l : List F) : fbPrev l = l.getLast?.toList ++ l.dropLast := by
  unfold fbPrev
  cases h : l.getLast? with
  | none => simp [List.getLast?_eq_none_iff.1 h]
  | some x => simp

theorem fbNext_length (l : List F) : (fbNext l).length = l.length := (C19_rotation_inverse l).2.2.1.length_eq

theorem fbPrev_length (l : List F) : (fbPrev l).length = l.length := (C19_rotation_inverse l).2.2.2.length_eq

/-- A full ring that is turned holds the queue turned. -/
theorem rep_next {b : Buf F} {cap : ℕ} {q : List F} (h : Rep b cap q) (hf : q.length = cap) :
    Rep { b with buf := fbNext b.buf } cap (fbNext q) := by
  refine ⟨h.len, by simp [fbNext_length, h.room], by simp [fbNext_length, h.size], by simp [fbNext_length, hf], h.head, fun i hi => ?_⟩
  rw [fbNext_length] at hi
  have hcap : 0 < cap := by omega
  have h1 := (C19_rotation_index b.buf 1 ((b.head + i) % cap) (by rw [h.room]; exact Nat.mod_lt _ hcap)).1
  have h2 := (C19_rotation_index q 1 i hi).1
  simp only [Function.iterate_one] at h1 h2
  show (fbNext b.buf)[(b.head + i) % cap]? = _
  rw [h1, h2, h.room, ← h.items _ (Nat.mod_lt _ (by omega)), hf, Nat.mod_add_mod, Nat.add_mod_mod]
  congr 2

theorem rep_prev {b : Buf F} {cap : ℕ} {q : List F} (h : Rep b cap q) (hf : q.length = cap) :
    Rep { b with buf := fbPrev b.buf } cap (fbPrev q) := by
  refine ⟨h.len, by simp [fbPrev_length, h.room], by simp [fbPrev_length, h.size], by simp [fbPrev_length, hf], h.head, fun i hi => ?_⟩
  rw [fbPrev_length] at hi
  have hcap : 0 < cap := by omega
  have hl : ∀ l : List F, fbPrev l = fbNext^[l.length - 1] l := by
    intro l
    have e : fbNext (fbPrev l) = l := (C19_rotation_inverse l).2.1
    cases hl : l.length with
    | zero => rw [List.length_eq_zero_iff.1 hl]; rfl
    | succ n =>
      have h3 : fbNext^[(fbPrev l).length] (fbPrev l) = fbPrev l := by
        have : 0 < (fbPrev l).length := by rw [fbPrev_length]; omega
        exact (C19_rotation_index (fbPrev l) 0 0 this).2
      rw [fbPrev_length, hl, Function.iterate_succ_apply, e] at h3
      exact h3.symm
  have h1 := (C19_rotation_index b.buf (b.buf.length - 1) ((b.head + i) % cap) (by rw [h.room]; exact Nat.mod_lt _ hcap)).1
  have h2 := (C19_rotation_index q (q.length - 1) i hi).1
  rw [← hl] at h1 h2
  show (fbPrev b.buf)[(b.head + i) % cap]? = _
  rw [h1, h2, h.room, ← h.items _ (Nat.mod_lt _ (by omega)), hf, Nat.mod_add_mod, Nat.add_mod_mod]
  congr 2
  ring

theorem rep_steps {cap : ℕ} : ∀ (os : List (Op F)) (b : Buf F) (q : List F), Rep b cap q → RotFull cap q os →
    ∃ b', steps b os = .ok (b', (qsteps cap q os).2) ∧ Rep b' cap (qsteps cap q os).1
  | [], b, q, h, _ => ⟨b, rfl, h⟩
  | o :: os, b, q, h, hr => by
    have hstep : ∃ b1, step b o = .ok (b1, (qstep cap q o).2) ∧ Rep b1 cap (qstep cap q o).1 := by
      cases o with
      | push x =>
        obtain ⟨b1, e, r⟩ := rep_push h x
        exact ⟨b1, by simp [step, e, bind, Except.bind, qstep], r⟩
      | pop =>
        obtain ⟨b1, e, r⟩ := rep_pop h
        exact ⟨b1, by simp [step, e, qstep], r⟩
      | next =>
        have r := rep_next h (hr.1 trivial)
        rw [fbNext_eq q] at r
        exact ⟨_, rfl, r⟩
      | prev =>
        have r := rep_prev h (hr.1 trivial)
        rw [fbPrev_eq q] at r
        exact ⟨_, rfl, r⟩
    obtain ⟨b1, e1, r1⟩ := hstep
    obtain ⟨b2, e2, r2⟩ := rep_steps os b1 _ r1 hr.2
    exact ⟨b2, by simp [steps, e1, e2, bind, Except.bind, qsteps], r2⟩

/-- C117 (part that holds): under any history of calls in which a rotation happens only on a full buffer, a new `FrameBufBase` behaves as an empty
queue of capacity `buf_len`: frames come out once each, in the order in which they were put in; a full buffer refuses frames. A
new `FrameBuf` behaves as a full one, with its own frames inside. No call raises. Missing: rotations of a buffer that is not
full, see `C117_rotation_refuted`. -/
theorem C117_queue_partial (frames : List F) (os : List (Op F)) :
    (RotFull frames.length [] os → ∃ b, steps (newBase frames frames.length) os = .ok (b, (qsteps frames.length [] os).2)) ∧
    (RotFull frames.length frames os → ∃ b, steps (newFrameBuf frames) os = .ok (b, (qsteps frames.length frames os).2)) := by
  constructor
  · intro h
    obtain ⟨b, e, -⟩ := rep_steps (cap := frames.length) os (newBase frames frames.length) []
      ⟨rfl, rfl, rfl, by simp, by rcases frames with _ | ⟨x, l⟩ <;> simp [newBase], by simp⟩ h
    exact ⟨b, e⟩
  · intro h
    obtain ⟨b, e, -⟩ := rep_steps (cap := frames.length) os (newFrameBuf frames) frames
      ⟨rfl, rfl, rfl, le_rfl, by rcases frames with _ | ⟨x, l⟩ <;> simp [newFrameBuf], fun i hi => by
        show frames[(0 + i) % frames.length]? = _
        rw [Nat.zero_add, Nat.mod_eq_of_lt hi]⟩ h
    exact ⟨b, e⟩

/-- C117: what goes in comes out, in order, also when the ring is passed many times: any number of rounds in which the frames
`xs` (at most as many as there is room for) are put in and taken out again. -/
theorem C117_rounds (frames : List F) (rounds : List (List F)) (hr : ∀ xs ∈ rounds, xs.length ≤ frames.length) :
    ∃ b, steps (newBase frames frames.length) (rounds.flatMap fun xs => xs.map .push ++ xs.map fun _ => .pop) =
      .ok (b, rounds.flatMap fun xs => xs.map (fun _ => none) ++ xs.map some) := by
  set cap := frames.length
  have happ : ∀ (os os' : List (Op F)) (q : List F), qsteps cap q (os ++ os') =
      ((qsteps cap (qsteps cap q os).1 os').1, (qsteps cap q os).2 ++ (qsteps cap (qsteps cap q os).1 os').2) := by
    intro os
    induction os with
    | nil => intro os' q; rfl
    | cons o os ih => intro os' q; simp [qsteps, ih]
  have hpush : ∀ (xs q : List F), q.length + xs.length ≤ cap →
      qsteps cap q (xs.map .push) = (q ++ xs, xs.map fun _ => none) := by
    intro xs
    induction xs with
    | nil => intro q _; simp [qsteps]
    | cons x xs ih =>
      intro q hq
      simp only [List.length_cons] at hq
      have h1 : (qstep cap q (.push x)).1 = q ++ [x] := by simp only [qstep]; rw [if_pos (by omega)]
      simp only [List.map_cons, qsteps, h1]
      rw [ih (q ++ [x]) (by simp; omega)]
      simp [qstep]
  have hpop : ∀ (xs q : List F), qsteps cap (xs ++ q) (xs.map fun _ => .pop) = (q, xs.map some) := by
    intro xs
    induction xs with
    | nil => intro q; rfl
    | cons x xs ih =>
      intro q
      simp only [List.map_cons, qsteps, qstep, List.cons_append, List.tail_cons, List.head?_cons, ih]
  have hrounds : ∀ rounds : List (List F), (∀ xs ∈ rounds, xs.length ≤ cap) →
      qsteps cap [] (rounds.flatMap fun xs => xs.map .push ++ xs.map fun _ => .pop) =
        ([], rounds.flatMap fun xs => xs.map (fun _ => none) ++ xs.map some) := by
    intro rounds
    induction rounds with
    | nil => intro _; rfl
    | cons xs rs ih =>
      intro h
      rw [List.flatMap_cons, happ, happ, hpush xs [] (by simpa using h xs (by simp))]
      have := hpop xs []
      rw [List.append_nil] at this
      simp only [List.nil_append, this]
      rw [ih fun ys hy => h ys (by simp [hy])]
      simp
  have hnorot : ∀ (os : List (Op F)) (q : List F), (∀ o ∈ os, ¬ IsRot o) → RotFull cap q os := by
    intro os
    induction os with
    | nil => intro q _; trivial
    | cons o os ih => intro q h; exact ⟨fun e => absurd e (h o (by simp)), ih _ fun o' ho => h o' (by simp [ho])⟩
  obtain ⟨b, e⟩ := (C117_queue_partial frames _).1 (hnorot _ [] (fun o ho => by
    obtain ⟨xs, -, ho⟩ := List.mem_flatMap.1 ho
    rcases List.mem_append.1 ho with ho | ho
    · obtain ⟨x, -, rfl⟩ := List.mem_map.1 ho; exact fun h => h
    · obtain ⟨x, -, rfl⟩ := List.mem_map.1 ho; exact fun h => h) : RotFull cap [] (rounds.flatMap fun xs => xs.map .push ++ xs.map fun _ => .pop))
  rw [hrounds rounds hr] at e
  exact ⟨b, e⟩

/-- Three rounds through a ring of two. -/
example : ∃ b, steps (newBase [0, 0] 2) [.push 1, .push 2, .push 3, .pop, .push 4, .pop, .pop, .pop] =
    .ok (b, [none, none, none, some 1, none, some 2, some 4, none]) := ⟨_, rfl⟩

example : RotFull 2 [] [.push 1, .push 2, .next, .pop, .pop] ∧
    ∃ b, steps (newBase [0, 0] 2) [.push 1, .push 2, .next, .pop, .pop] = .ok (b, [none, none, none, some 2, some 1]) := by
  refine ⟨by simp [RotFull, IsRot, qstep], _, rfl⟩

/-- A new frame buffer is full: it refuses a frame, and hands out its own. -/
example : ∃ b, steps (newFrameBuf [7, 8]) [.push 1, .pop, .push 1, .pop, .pop] = .ok (b, [none, some 7, none, some 8, some 1]) := ⟨_, rfl⟩

/-- C117 refuted for a rotation of a buffer that is not full: after two frames are put into a ring with room for more, the ring is turned, and
both are asked for, the second comes first and then a frame that was never put in. -/
theorem C117_rotation_refuted (x y z : F) (rest : List F) (a b : F) :
    (∃ r, steps (newBase (x :: y :: z :: rest) (rest.length + 3)) [.push a, .push b, .next, .pop, .pop] =
      .ok (r, [none, none, none, some b, some z])) ∧
    (qsteps (rest.length + 3) [] [.push a, .push b, .next, .pop, .pop]).2 = [none, none, none, some b, some a] := by
  have m0 : 0 % (rest.length + 3) = 0 := Nat.zero_mod _
  have m1 : 1 % (rest.length + 3) = 1 := Nat.mod_eq_of_lt (by omega)
  constructor
  · simp [steps, step, push, pop, newBase, bind, Except.bind, fbNext, pyGet, m1]
  · simp [qsteps, qstep]

end Verif.Ring
