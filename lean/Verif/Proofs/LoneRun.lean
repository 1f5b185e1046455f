/-
A whole forward run with one particle.
-/
import Verif.Proofs.Lone

set_option linter.unusedSectionVars false

namespace Verif.Track
open Verif.Track.Spec

section
variable {P J C I D : Type} [Field D] [LinearOrder D] [IsStrictOrderedRing D]

/-- The position expected after the next frame, in step `s` of a run from `first`. -/
def aheadAt (g : Geo P J C I D) (x : Int → P) (first s : Int) : P :=
  if s = first then g.predict (x s) (x (s + 1)) else g.predict2 (x (s + 1)) (x s) (x (s - 1))

/-- What the proof needs of geometry, files and trajectory `x` for a run over the frames `first .. last`. `V` are the
positions where the searches work. -/
structure LoneHyp (g : Geo P J C I D) (disk : Int → Frame P D I) (x : Int → P) (V : P → Prop) (N : Nat) (first last : Int) :
    Prop where
  add : g.add = false
  parts : ∀ n, first ≤ n → n ≤ last → ∃ c d, (disk n).parts = [⟨x n, PREV_NONE, NEXT_NONE, c, d⟩]
  search : ∀ X, V X → ∀ n, first ≤ n → n ≤ last → g.search X (g.proj X) (disk n).img = .ok [⟨0, N⟩, ⟨-1, 0⟩] ∧
    ∃ v c, g.assess X (disk n).img = .ok (0, v, c)
  own : g.search (x first) (g.projOwn (disk first).img 0 (x first)) (disk (first + 1)).img = .ok [⟨0, N⟩, ⟨-1, 0⟩]
  start : g.inBounds (g.sub (x (first + 2)) (x (first + 1))) = true ∧
    ∃ angle acc, g.angleAcc (x (first + 1)) (x (first + 2)) (g.predict (x first) (x (first + 1))) = .ok (angle, acc) ∧
      Smooth g angle acc
  vis : ∀ s, first < s → s < last → V (g.predict (x (s - 1)) (x s))
  visAhead : ∀ s, first ≤ s → s < last → V (aheadAt g x first s)
  step : ∀ s, first < s → s < last → g.inBounds (g.sub (x (s + 1)) (x s)) = true ∧
    ∃ angle acc, g.angleAcc (x s) (g.predict (x (s - 1)) (x s)) (x (s + 1)) = .ok (angle, acc) ∧ Smooth g angle acc
  angle : ∀ s m, first ≤ s → s < last → (s + 2 ≤ last ∧ m = s + 2 ∨ last < s + 2 ∧ m = s - 2) →
    g.inBounds (g.sub (x m) (x (s + 1))) = true →
    ∃ a, g.angleAcc (x (s + 1)) (x m) (aheadAt g x first s) = .ok a

/-- The written frame `n` of a run over `first .. last` has the one particle, linked to its neighbours in time. -/
def LoneWritten (x : Int → P) (first last n : Int) (f : Frame P D I) : Prop :=
  f.parts.map (fun p => (p.x, p.prev, p.next)) =
    [(x n, if n = first then PREV_NONE else 0, if n = last then NEXT_NONE else 0)]

/-- The buffer before step `s`. -/
structure LoneBuf (disk : Int → Frame P D I) (x : Int → P) (first last s : Int) (b0 b1 b2 b3 : Frame P D I) : Prop where
  cur : ∃ c d, b1.parts = [⟨x s, if s = first then PREV_NONE else 0, NEXT_NONE, c, d⟩] ∧ b1.img = (disk s).img
  old : first < s → ∃ q, b0.parts = [q] ∧ q.x = x (s - 1) ∧ b0.img = (disk (s - 1)).img
  nxt : s < last → b2 = disk (s + 1)
  nxt2 : s + 2 ≤ last → b3 = disk (s + 2)
  stale : s < last → last < s + 2 → ∃ q, b3.parts = [q] ∧ q.x = x (s - 2) ∧ b3.img = (disk (s - 2)).img

theorem lone_buf_step {g : Geo P J C I D} {disk : Int → Frame P D I} {x : Int → P} {V : P → Prop} {N : Nat} {first last : Int}
    (H : LoneHyp g disk x V N first last) (hL : first + 3 ≤ last) {s : Int} (hs : first ≤ s) (hs' : s < last)
    {b0 b1 b2 b3 : Frame P D I} (B : LoneBuf disk x first last s b0 b1 b2 b3) :
    ∃ c d, stepFrames g b0 b1 b2 b3 = .ok ({ b1 with parts := [⟨x s, if s = first then PREV_NONE else 0, 0, c, d⟩] },
      { b2 with parts := b2.parts.map fun r => { r with prev := 0 } }, b3, 1) := by
  obtain ⟨c1, d1, e1, i1⟩ := B.cur
  obtain ⟨c2, d2, e2⟩ := H.parts (s + 1) (by omega) (by omega)
  have hb2 := B.nxt hs'
  subst hb2
  -- the frame after next
  obtain ⟨m, q, hm, hmr, e3, hqx, i3⟩ : ∃ m q, (s + 2 ≤ last ∧ m = s + 2 ∨ last < s + 2 ∧ m = s - 2) ∧ (first ≤ m ∧ m ≤ last) ∧
      b3.parts = [q] ∧ q.x = x m ∧ b3.img = (disk m).img := by
    by_cases h : s + 2 ≤ last
    · obtain ⟨c3, d3, e⟩ := H.parts (s + 2) (by omega) h
      exact ⟨s + 2, _, Or.inl ⟨h, rfl⟩, ⟨by omega, h⟩, by rw [B.nxt2 h, e], rfl, by rw [B.nxt2 h]⟩
    · obtain ⟨q, h1, h2, h3⟩ := B.stale hs' (by omega)
      exact ⟨s - 2, q, Or.inr ⟨by omega, rfl⟩, ⟨by omega, by omega⟩, h1, h2, h3⟩
  by_cases h0 : s = first
  · subst h0
    rw [if_pos rfl] at e1 ⊢
    have hxa : expectedAfter g none (x s) (x (s + 1)) = aheadAt g x s s := by
      simp only [aheadAt, if_true, expectedAfter]
    have hva := H.visAhead s (le_refl _) hs'
    obtain ⟨w1, w2⟩ := H.search _ hva m hmr.1 hmr.2
    have hm2 : m = s + 2 := by omega
    obtain ⟨cands, final, h⟩ := lone_step (g := g) H.add (b0 := b0) e1 e2 e3 (x0 := none) (by simp [prevPos, PREV_NONE]) (n := N)
      (n' := N) (by
        show g.search (x s) (g.projOwn b1.img 0 (x s)) _ = _
        rw [i1]; exact H.own)
      (by simp only [hxa, i3]; exact w1) (by simp only [hxa, i3]; exact w2)
      (by simp only [hxa, hqx]; exact H.angle s m (le_refl _) hs' hm) (by simp)
      (Or.inr ⟨rfl, by simp only [hqx, hm2]; exact H.start.1, by simp only [hqx, hm2]; exact H.start.2⟩) rfl
    refine ⟨cands, final, ?_⟩
    rw [h, e2]
    rfl
  · rw [if_neg h0] at e1 ⊢
    have hlt : first < s := by omega
    obtain ⟨q0, o1, o2, o3⟩ := B.old hlt
    have hxa : expectedAfter g (some (x (s - 1))) (x s) (x (s + 1)) = aheadAt g x first s := by
      simp only [aheadAt, if_neg h0, expectedAfter]
    have hva := H.visAhead s hs hs'
    obtain ⟨w1, w2⟩ := H.search _ hva m hmr.1 hmr.2
    obtain ⟨w3, -⟩ := H.search _ (H.vis s hlt hs') (s + 1) (by omega) (by omega)
    obtain ⟨st1, angle, acc, st2, st3⟩ := H.step s hlt hs'
    obtain ⟨cands, final, h⟩ := lone_step (g := g) H.add (b0 := b0) e1 e2 e3 (x0 := some (x (s - 1)))
      (by simp [prevPos, o1, o2, pyGetI, pyGet, bind, Except.bind]) (n := N) (n' := N) w3
      (by simp only [hxa, i3]; exact w1) (by simp only [hxa, i3]; exact w2)
      (by simp only [hxa, hqx]; exact H.angle s m hs hs' hm) (fun _ => ⟨_, st2⟩)
      (Or.inl ⟨rfl, st1, angle, acc, st2, st3⟩) rfl
    refine ⟨cands, final, ?_⟩
    rw [h, e2]
    rfl

theorem lone_steps {g : Geo P J C I D} {disk : Int → Frame P D I} {x : Int → P} {V : P → Prop} {N : Nat} {first last : Int}
    (H : LoneHyp g disk x V N first last) (hL : first + 3 ≤ last) : ∀ (k : Nat) (s : Int) (b0 b1 b2 b3 : Frame P D I)
    (log : List (Ev (Frame P D I))), first ≤ s → s + k = last → LoneBuf disk x first last s b0 b1 b2 b3 →
    ∃ r b0' b1' b2' b3' ws, forwardSteps disk (trackBuf g) last k s ⟨[b0, b1, b2, b3], log⟩ = .ok r ∧ r.buf = [b0', b1', b2', b3'] ∧
      LoneBuf disk x first last last b0' b1' b2' b3' ∧ writesOf r.log = writesOf log ++ ws ∧
      ws.map Prod.fst = intRange s k ∧ ∀ w ∈ ws, LoneWritten x first last w.1 w.2
  | 0, s, b0, b1, b2, b3, log, hs, hk, B => by
    have : s = last := by omega
    subst this
    exact ⟨_, b0, b1, b2, b3, [], rfl, rfl, B, by simp, rfl, by simp⟩
  | k + 1, s, b0, b1, b2, b3, log, hs, hk, B => by
    have hs' : s < last := by omega
    obtain ⟨c, d, hst⟩ := lone_buf_step H hL hs hs' B
    obtain ⟨c2, d2, e2⟩ := H.parts (s + 1) (by omega) (by omega)
    obtain ⟨c1, d1, e1, i1⟩ := B.cur
    set b1' : Frame P D I := { b1 with parts := [⟨x s, if s = first then PREV_NONE else 0, 0, c, d⟩] } with hb1'
    set b2' : Frame P D I := { b2 with parts := b2.parts.map fun r => { r with prev := 0 } } with hb2'
    set b3' : Frame P D I := if s < last - 2 then disk (s + 3) else b0 with hb3'
    set log' := log ++ [.step s [b0, b1, b2, b3], .write s b1'] ++ (if s < last - 2 then [.read (s + 3)] else []) with hlog'
    have hstep : forwardStep disk (trackBuf g) last s ⟨[b0, b1, b2, b3], log⟩ = .ok ⟨[b1', b2', b3, b3'], log'⟩ := by
      unfold forwardStep trackBuf
      simp only [hst, bind, Except.bind, Run.next, fbNext, writeFromStart, pyGet, List.cons_append, List.nil_append,
        List.getElem?_cons_zero]
      by_cases h : s < last - 2
      · rw [if_pos h]
        simp only [readAtEnd, hb3', hlog', if_pos h]
        simp
      · rw [if_neg h]
        simp only [hb3', hlog', if_neg h]
        simp
    have hb2e : b2 = disk (s + 1) := B.nxt hs'
    have B' : LoneBuf disk x first last (s + 1) b1' b2' b3 b3' := by
      refine ⟨?_, ?_, ?_, ?_, ?_⟩
      · refine ⟨c2, d2, ?_, ?_⟩
        · rw [hb2', hb2e, if_neg (by omega), e2]
          rfl
        · rw [hb2', hb2e]
      · intro _
        exact ⟨_, rfl, by simp, by rw [hb1']; simp [i1]⟩
      · intro h
        rw [B.nxt2 (by omega)]
        congr 1
        ring
      · intro h
        rw [hb3', if_pos (by omega)]
        congr 1
        ring
      · intro h1 h2
        rw [hb3', if_neg (by omega)]
        obtain ⟨q, o1, o2, o3⟩ := B.old (by omega)
        have : s + 1 - 2 = s - 1 := by ring
        rw [this]
        exact ⟨q, o1, o2, o3⟩
    obtain ⟨r, b0', b1'', b2'', b3'', ws, r1, r2, r3, r4, r5, r6⟩ := lone_steps H hL k (s + 1) b1' b2' b3 b3' log' (by omega)
      (by push_cast at hk; omega) B'
    refine ⟨r, b0', b1'', b2'', b3'', (s, b1') :: ws, ?_, r2, r3, ?_, ?_, ?_⟩
    · simp only [forwardSteps, hstep, bind, Except.bind, r1]
    · rw [r4, hlog', writesOf_append, writesOf_append]
      have hw : writesOf (if s < last - 2 then [Ev.read (F := Frame P D I) (s + 3)] else []) = [] := by
        split_ifs <;> rfl
      rw [hw]
      simp [writesOf]
    · rw [List.map_cons, r5]
      unfold intRange
      rw [List.range_succ_eq_map, List.map_cons, List.map_map]
      refine List.cons_eq_cons.2 ⟨by simp, List.map_congr_left fun i _ => ?_⟩
      simp only [Function.comp_apply]
      push_cast
      ring
    · intro w hw
      rcases List.mem_cons.1 hw with rfl | hw
      · simp only [LoneWritten, hb1', List.map_cons, List.map_nil]
        rw [if_neg (show ¬ s = last by omega)]
      · exact r6 w hw

/-- A run with one particle writes one complete trajectory. -/
theorem lone_run {g : Geo P J C I D} {disk : Int → Frame P D I} {x : Int → P} {V : P → Prop} {N : Nat} {first : Int} {L : Nat}
    (H : LoneHyp g disk x V N first (first + L)) (hL : 3 ≤ L) (a b c d : Frame P D I) :
    ∃ r, forwardRun disk (trackBuf g) first (first + L) [a, b, c, d] = .ok r ∧
      (writesOf r.log).map Prod.fst = intRange first (L + 1) ∧
      ∀ w ∈ writesOf r.log, LoneWritten x first (first + L) w.1 w.2 := by
  have hstart : ∃ log, forwardStart disk first ⟨[a, b, c, d], []⟩ =
      ⟨[c, disk first, disk (first + 1), disk (first + 2)], log⟩ ∧ writesOf log = [] := by
    refine ⟨[.read first, .read (first + 1), .read (first + 2)], ?_, rfl⟩
    simp [forwardStart, List.range_succ, readAtEnd, Run.next, Run.prev, fbNext, fbPrev]
  obtain ⟨log, h1, h2⟩ := hstart
  have B : LoneBuf disk x first (first + L) first c (disk first) (disk (first + 1)) (disk (first + 2)) := by
    obtain ⟨c1, d1, e1⟩ := H.parts first (le_refl _) (by omega)
    refine ⟨⟨c1, d1, by rw [if_pos rfl]; exact e1, rfl⟩, fun h => absurd h (lt_irrefl _), fun _ => rfl, fun _ => rfl, ?_⟩
    intro _ h
    omega
  obtain ⟨r, b0', b1', b2', b3', ws, r1, r2, r3, r4, r5, r6⟩ := lone_steps H (by omega) L first c (disk first) (disk (first + 1))
    (disk (first + 2)) log (le_refl _) rfl B
  have hfin : forwardFinish first (first + L) (first + L) r =
      .ok ⟨[b1', b2', b3', b0'], r.log ++ [.write (first + L) b1']⟩ := by
    unfold forwardFinish
    rw [if_neg (by omega)]
    simp [writeFromStart, Run.next, r2, fbNext, pyGet, bind, Except.bind]
  refine ⟨⟨[b1', b2', b3', b0'], r.log ++ [.write (first + L) b1']⟩, ?_, ?_, ?_⟩
  · unfold forwardRun
    rw [h1, show (first + (L : Int) - first).toNat = L by omega, r1]
    simp only [bind, Except.bind]
    exact hfin
  · simp only [writesOf_append, writesOf, r4, h2, List.nil_append, List.map_append, r5, List.map_cons, List.map_nil]
    unfold intRange
    rw [List.range_succ, List.map_append]
    rfl
  · intro w hw
    simp only [writesOf_append, writesOf, r4, h2, List.nil_append, List.mem_append, List.mem_singleton] at hw
    rcases hw with hw | rfl
    · exact r6 w hw
    · obtain ⟨c1, d1, e1, -⟩ := r3.cur
      simp only [LoneWritten, e1, List.map_cons, List.map_nil, if_true]

end

end Verif.Track
