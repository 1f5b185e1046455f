/-
The steps of a whole forward run (adding off), one by one: what each step computes on and what it writes.
-/
import Verif.Props.WellSeen
import Verif.Props.Gates
import Verif.Proofs.Total

set_option linter.unusedSectionVars false

namespace Verif.Track
open Verif.Track.Spec

section
variable {P J C I D : Type} [Field D] [LinearOrder D] [IsStrictOrderedRing D]

theorem searchLoop_curImg {g : Geo P J C I D} {b0 : Frame P D I} : ∀ (l : List Nat) (b1 b2 b3 a1 a2 a3 : Frame P D I),
    searchLoop g b0 l b1 b2 b3 = .ok (a1, a2, a3) → a1.img = b1.img
  | [], b1, b2, b3, a1, a2, a3, h => by
    simp only [searchLoop] at h
    cases h
    rfl
  | j :: l, b1, b2, b3, a1, a2, a3, h => by
    simp only [searchLoop] at h
    obtain ⟨⟨cur, b2a, b3a⟩, h1, h⟩ := bind_ok h
    have := searchLoop_curImg l _ _ _ _ _ _ h
    exact this

/-- With adding off a step does not touch the frame after next, and the images stay as they are. -/
theorem stepFrames_noadd {g : Geo P J C I D} (hg : SearchSane g) (hadd : g.add = false) {b0 b1 b2 b3 b1' b2' b3' : Frame P D I}
    {cnt : Nat} (hp2 : ∀ q ∈ b2.parts, q.prev = PREV_NONE) (h : stepFrames g b0 b1 b2 b3 = .ok (b1', b2', b3', cnt)) :
    b3' = b3 ∧ b1'.img = b1.img ∧ b2'.img = b2.img ∧ b2'.parts.length = b2.parts.length := by
  unfold stepFrames at h
  obtain ⟨⟨a1, a2, a3⟩, hs, h⟩ := bind_ok h
  have hi := searchLoop_curImg _ _ _ _ _ _ _ hs
  have hs' := hs
  rw [List.range_eq_range'] at hs'
  obtain ⟨e, -⟩ := searchLoop_at hg _ 0 b1 b2 b3 a1 a2 a3 (by simp) hs'
  obtain ⟨-, -, -, -, e2⟩ := searchLoop_spec hg b1.parts.length 0 b1 b2 b3 a1 a2 a3 (by omega) hs'
  obtain ⟨e4, e5⟩ := e hadd
  simp only at h
  obtain ⟨c', n', t, hl, -, hlen, -⟩ := linkPhase_spec (c := a1.parts) (n := a2.parts) (by rw [e4]; exact hp2) (by
    intro p hp x hx
    obtain ⟨i, hi⟩ := List.getElem?_of_mem hp
    have hlt := (List.getElem?_eq_some_iff.1 hi).1
    obtain ⟨-, -, -, e1, -⟩ := searchLoop_spec hg b1.parts.length 0 b1 b2 b3 a1 a2 a3 (by omega) hs'
    obtain ⟨cs, f1, -, f2⟩ := (e2 i _ (List.getElem?_eq_getElem (by omega))).2 (Nat.zero_le _)
    rw [hi] at f1
    cases f1
    exact f2 x hx)
  rw [hl] at h
  cases h
  exact ⟨e5, hi, by rw [e4], by rw [hlen, e4]⟩

/-- What step `s` of a run to `last` works on (`b0` is the frame before, as it was written) and what it leaves: `f` is the frame it
writes, `f'` the frame the next step (or the end of the run) writes. -/
structure StepAt (g : Geo P J C I D) (disk : Int → Frame P D I) (last s : Int) (b0 f f' : Frame P D I) : Prop where
  step : ∃ b1 b2' b3 b3' cnt, stepFrames g b0 b1 (disk (s + 1)) b3 = .ok (f, b2', b3', cnt) ∧ b1.img = (disk s).img ∧
    b1.parts.map Part.x = (disk s).parts.map Part.x ∧ (∀ p ∈ b1.parts, p.next = NEXT_NONE) ∧ (s + 2 ≤ last → b3 = disk (s + 2)) ∧
    f.parts.map Part.x = b1.parts.map Part.x ∧ f.parts.map Part.prev = b1.parts.map Part.prev ∧
    f'.parts.map Part.x = b2'.parts.map Part.x ∧ f'.parts.map Part.prev = b2'.parts.map Part.prev
  links : Mutual f.parts f'.parts
  pos : f.parts.map Part.x = (disk s).parts.map Part.x
  pos' : f'.parts.map Part.x = (disk (s + 1)).parts.map Part.x

/-- The buffer before step `s`. -/
structure NoAddBuf (disk : Int → Frame P D I) (last s : Int) (b1 b2 b3 : Frame P D I) : Prop where
  img : b1.img = (disk s).img
  pos : b1.parts.map Part.x = (disk s).parts.map Part.x
  nonext : ∀ p ∈ b1.parts, p.next = NEXT_NONE
  nxt : s < last → b2 = disk (s + 1)
  nxt2 : s + 2 ≤ last → b3 = disk (s + 2)

theorem mutual_of_maps {a b b' : List (Part P D)} (h : Mutual a b) (hp : b'.map Part.prev = b.map Part.prev) : Mutual a b' := by
  have hlen : b'.length = b.length := by simpa using congrArg List.length hp
  have hpb : ∀ (k : Nat) (m : Int), PointsBack b' k m ↔ PointsBack b k m := by
    intro k m
    have e := congrArg (fun l => l[k]?) hp
    simp only [List.getElem?_map] at e
    unfold PointsBack
    constructor
    · rintro ⟨q, h1, h2⟩
      rw [h1] at e
      cases h3 : b[k]? with
      | none => rw [h3] at e; simp at e
      | some q' =>
        rw [h3] at e
        simp only [Option.map_some, Option.some.injEq] at e
        exact ⟨q', rfl, by rw [← e, h2]⟩
    · rintro ⟨q, h1, h2⟩
      rw [h1] at e
      cases h3 : b'[k]? with
      | none => rw [h3] at e; simp at e
      | some q' =>
        rw [h3] at e
        simp only [Option.map_some, Option.some.injEq] at e
        exact ⟨q', rfl, by rw [e, h2]⟩
  refine ⟨fun m k => (h.1 m k).trans (hpb k m).symm, fun p hp => by rw [hlen]; exact h.2.1 p hp, ?_⟩
  intro q hq
  have : q.prev ∈ b'.map Part.prev := List.mem_map_of_mem hq
  rw [hp, List.mem_map] at this
  obtain ⟨q', h1, h2⟩ := this
  rw [← h2]
  exact h.2.2 q' h1

theorem steps_noadd {g : Geo P J C I D} (hg : SearchSane g) (hadd : g.add = false) {disk : Int → Frame P D I}
    (hd : ∀ n, ∀ p ∈ (disk n).parts, Unlinked p) {last : Int} : ∀ (k : Nat) (s : Int) (b0 b1 b2 b3 : Frame P D I)
    (log : List (Ev (Frame P D I))) (r : Run (Frame P D I)), s + k = last → NoAddBuf disk last s b1 b2 b3 →
    forwardSteps disk (trackBuf g) last k s ⟨[b0, b1, b2, b3], log⟩ = .ok r →
    ∃ (w : Nat → Frame P D I) (b0' b2' b3' : Frame P D I), r.buf = [b0', w k, b2', b3'] ∧
      writesOf r.log = writesOf log ++ (List.range k).map (fun j : Nat => (s + (j : Int), w j)) ∧
      (w 0).parts.map Part.x = b1.parts.map Part.x ∧ (w 0).parts.map Part.prev = b1.parts.map Part.prev ∧
      (∀ p ∈ (w k).parts, p.next = NEXT_NONE) ∧
      (∀ j, j < k → StepAt g disk last (s + (j : Int)) (if j = 0 then b0 else w (j - 1)) (w j) (w (j + 1))) ∧
      ∀ j : Nat, j ≤ k → (w j).img = (disk (s + (j : Int))).img
  | 0, s, b0, b1, b2, b3, log, r, hk, B, h => by
    simp only [forwardSteps] at h
    cases h
    exact ⟨fun _ => b1, b0, b2, b3, rfl, by simp, rfl, rfl, B.nonext, fun j hj => absurd hj (by omega), fun j hj => by
      obtain rfl : j = 0 := by omega
      simpa using B.img⟩
  | k + 1, s, b0, b1, b2, b3, log, r, hk, B, h => by
    have hs' : s < last := by omega
    have hb2e : b2 = disk (s + 1) := B.nxt hs'
    subst hb2e
    simp only [forwardSteps] at h
    obtain ⟨r1, h1, h⟩ := bind_ok h
    -- the step
    have hh : ∃ b1' b2' cnt, stepFrames g b0 b1 (disk (s + 1)) b3 = .ok (b1', b2', b3, cnt) ∧ b1'.img = b1.img ∧
        b2'.img = (disk (s + 1)).img ∧ b2'.parts.length = (disk (s + 1)).parts.length := by
      have h1 := h1
      unfold forwardStep trackBuf at h1
      obtain ⟨buf, h2, h1⟩ := bind_ok h1
      obtain ⟨⟨b1', b2', b3', cnt⟩, hst, h2⟩ := bind_ok h2
      obtain ⟨rfl, e2, e3, e4⟩ := stepFrames_noadd hg hadd (fun q hq => (hd _ q hq).1) hst
      exact ⟨b1', b2', cnt, hst, e2, e3, e4⟩
    obtain ⟨b1', b2', cnt, hst, i1, i2, hlen⟩ := hh
    obtain ⟨M, same, samep, nn, -, -, -, e, he⟩ := stepFrames_spec hg B.nonext (fun p hp => hd (s + 1) p hp) hst
    have hpos2 : b2'.parts.map Part.x = (disk (s + 1)).parts.map Part.x := by
      have h1 := congrArg List.length he
      simp only [List.length_map, List.length_append] at h1
      have : e = [] := List.eq_nil_of_length_eq_zero (by omega)
      rw [he, this, List.append_nil]
    set b3' : Frame P D I := if s < last - 2 then disk (s + 3) else b0 with hb3'
    set log' := log ++ [.step s [b0, b1, disk (s + 1), b3], .write s b1'] ++ (if s < last - 2 then [.read (s + 3)] else []) with hlog'
    have hstep : forwardStep disk (trackBuf g) last s ⟨[b0, b1, disk (s + 1), b3], log⟩ = .ok ⟨[b1', b2', b3, b3'], log'⟩ := by
      unfold forwardStep trackBuf
      simp only [hst, bind, Except.bind, Run.next, fbNext, writeFromStart, pyGet, List.cons_append, List.nil_append,
        List.getElem?_cons_zero]
      by_cases h : s < last - 2
      · rw [if_pos h]
        simp only [readAtEnd, hb3', hlog', if_pos h]
        simp
      · rw [if_neg h]
        simp only [hb3', hlog', if_neg h]
        simp
    rw [hstep] at h1
    cases h1
    have B' : NoAddBuf disk last (s + 1) b2' b3 b3' := by
      refine ⟨i2, hpos2, nn, ?_, ?_⟩
      · intro h
        rw [B.nxt2 (by omega)]
        congr 1
        ring
      · intro h
        rw [hb3', if_pos (by omega)]
        congr 1
        ring
    obtain ⟨w, b0'', b2'', b3'', w1, w2, w3, w4, w5, w6, w7⟩ := steps_noadd hg hadd hd k (s + 1) b1' b2' b3 b3' log' r
      (by push_cast at hk; omega) B' h
    refine ⟨fun j => if j = 0 then b1' else w (j - 1), b0'', b2'', b3'', by simpa using w1, ?_, by simpa using (show b1'.parts.map Part.x = b1.parts.map Part.x from same),
      by simpa using samep, by simpa using w5, ?_, ?_⟩
    · rw [w2, hlog', writesOf_append, writesOf_append]
      have hw : writesOf (if s < last - 2 then [Ev.read (F := Frame P D I) (s + 3)] else []) = [] := by
        split_ifs <;> rfl
      rw [hw, List.range_succ_eq_map, List.map_cons, List.map_map]
      simp only [writesOf, List.append_nil, List.append_assoc, List.cons_append, List.nil_append, Nat.cast_zero, add_zero, if_true]
      congr 2
      refine List.map_congr_left fun i _ => ?_
      simp only [Function.comp_apply, Nat.succ_eq_add_one, Nat.add_one_ne_zero, if_false, Nat.add_sub_cancel]
      push_cast
      rw [show s + 1 + (i : Int) = s + (i + 1) by ring]
    · intro j hj
      rcases Nat.eq_zero_or_pos j with rfl | hj0
      · simp only [if_true, Nat.cast_zero, add_zero, Nat.zero_add, Nat.add_one_ne_zero, if_false]
        refine ⟨⟨b1, b2', b3, b3, cnt, hst, B.img, B.pos, B.nonext, B.nxt2, same, samep, w3, w4⟩, mutual_of_maps M w4, by rw [same, B.pos],
          by rw [show 1 - 1 = 0 from rfl, w3, hpos2]⟩
      · obtain ⟨j, rfl⟩ : ∃ i, j = i + 1 := ⟨j - 1, by omega⟩
        have := w6 j (by omega)
        simp only [Nat.add_one_ne_zero, if_false, Nat.add_sub_cancel]
        push_cast
        rw [show s + ((j : Int) + 1) = s + 1 + j by ring]
        exact this
    · intro j hj
      rcases Nat.eq_zero_or_pos j with rfl | hj0
      · simp only [if_true, Nat.cast_zero, add_zero]
        rw [i1, B.img]
      · obtain ⟨j, rfl⟩ : ∃ i, j = i + 1 := ⟨j - 1, by omega⟩
        have := w7 j (by omega)
        simp only [Nat.add_one_ne_zero, if_false, Nat.add_sub_cancel]
        push_cast
        rw [show s + ((j : Int) + 1) = s + 1 + j by ring]
        exact this

/-- All steps of a forward run. `w k` is what the run writes for frame `first + k`. -/
theorem run_noadd {g : Geo P J C I D} (hg : SearchSane g) (hadd : g.add = false) {disk : Int → Frame P D I}
    (hd : ∀ n, ∀ p ∈ (disk n).parts, Unlinked p) {first : Int} {L : Nat} {a b c d : Frame P D I} {r : Run (Frame P D I)}
    (h : forwardRun disk (trackBuf g) first (first + L) [a, b, c, d] = .ok r) :
    ∃ w : Nat → Frame P D I, writesOf r.log = (List.range (L + 1)).map (fun j : Nat => (first + (j : Int), w j)) ∧
      (w 0).parts.map Part.x = (disk first).parts.map Part.x ∧ (∀ p ∈ (w 0).parts, p.prev = PREV_NONE) ∧
      (∀ p ∈ (w L).parts, p.next = NEXT_NONE) ∧
      (∀ j, j < L → StepAt g disk (first + L) (first + (j : Int)) (if j = 0 then c else w (j - 1)) (w j) (w (j + 1))) ∧
      ∀ j : Nat, j ≤ L → (w j).img = (disk (first + (j : Int))).img := by
  unfold forwardRun at h
  obtain ⟨r1, h1, h⟩ := bind_ok h
  have hL : ((first + (L : Int)) - first).toNat = L := by omega
  rw [hL, forwardStart_eq] at h1
  obtain ⟨w, b0', b2', b3', w1, w2, w3, w4, w5, w6, w7⟩ := steps_noadd hg hadd hd L first c _ _ _ _ r1 rfl
    ⟨rfl, rfl, fun p hp => (hd _ p hp).2, fun _ => rfl, fun _ => rfl⟩ h1
  refine ⟨w, ?_, w3, ?_, w5, w6, w7⟩
  · unfold forwardFinish at h
    split_ifs at h
    have : r.log = r1.log ++ [.write (first + L) (w L)] := by
      simp only [writeFromStart, Run.next, w1, fbNext, pyGet, bind, Except.bind, List.cons_append, List.getElem?_cons_zero] at h
      cases h
      rfl
    rw [this, writesOf_append, w2, List.range_succ, List.map_append]
    simp [writesOf]
  · intro p hp
    have : p.prev ∈ (w 0).parts.map Part.prev := List.mem_map_of_mem hp
    rw [w4, List.mem_map] at this
    obtain ⟨q, h1, h2⟩ := this
    rw [← h2]
    exact (hd _ q h1).1

theorem map_get_some {α β : Type} {f : α → β} {l l' : List α} (h : l'.map f = l.map f) {i : Nat} {a : α} (ha : l'[i]? = some a) :
    ∃ b, l[i]? = some b ∧ f b = f a := by
  have e := congrArg (fun l => l[i]?) h
  simp only [List.getElem?_map, ha, Option.map_some] at e
  cases hb : l[i]? with
  | none => rw [hb] at e; simp at e
  | some b =>
    rw [hb] at e
    simp only [Option.map_some, Option.some.injEq] at e
    exact ⟨b, rfl, e.symm⟩

/-- The predecessor of a particle of the frame that step `j` works on is a particle of the frame written before, linked to it. -/
theorem predecessor_linked {g : Geo P J C I D} {disk : Int → Frame P D I} {first : Int} {L : Nat} {c : Frame P D I} {w : Nat → Frame P D I}
    (h0 : ∀ p ∈ (w 0).parts, p.prev = PREV_NONE)
    (hS : ∀ j, j < L → StepAt g disk (first + L) (first + (j : Int)) (if j = 0 then c else w (j - 1)) (w j) (w (j + 1)))
    {j : Nat} (hj : j < L) {i : Nat} {p q : Part P D} (hq : (w j).parts[i]? = some q) (hpq : q.prev = p.prev) {x0 : Option P}
    (hx : Predecessor ((if j = 0 then c else w (j - 1)).parts.map Part.x) p x0) {y0 : P} (hy : x0 = some y0) :
    ∃ (m : Nat) (q0 : Part P D), 0 < j ∧ (w (j - 1)).parts[m]? = some q0 ∧ q0.x = y0 ∧ q0.next = i ∧ p.prev = m := by
  subst hy
  unfold Predecessor at hx
  have hneg : ¬ p.prev < 0 := by
    intro h
    rw [if_pos h] at hx
    cases hx
  rw [if_neg hneg] at hx
  have hj0 : 0 < j := by
    rcases Nat.eq_zero_or_pos j with rfl | h
    · exfalso
      have := h0 q (List.mem_of_getElem? hq)
      rw [hpq] at this
      rw [this] at hneg
      exact hneg (by decide)
    · exact h
  rw [if_neg (by omega)] at hx
  obtain ⟨-, hx⟩ := hx
  rw [List.getElem?_map, Option.map_eq_some_iff] at hx
  obtain ⟨q0, hq0, hx⟩ := hx
  have hS' := hS (j - 1) (by omega)
  rw [show j - 1 + 1 = j by omega] at hS'
  have := (hS'.links.1 p.prev.toNat i).2 ⟨q, hq, by rw [hpq]; omega⟩
  obtain ⟨q1, hq1, h2⟩ := this
  rw [hq0] at hq1
  cases hq1
  exact ⟨p.prev.toNat, q0, hj0, hq0, hx, h2, by omega⟩

/-- All links of a run satisfy `R`, if every reason for a link implies it. -/
theorem run_links {g : Geo P J C I D} (hg : SearchSane g) {disk : Int → Frame P D I}
    (hd : ∀ n, ∀ p ∈ (disk n).parts, Unlinked p) {first : Int} {L : Nat} {c : Frame P D I} {w : Nat → Frame P D I}
    (h0 : ∀ p ∈ (w 0).parts, p.prev = PREV_NONE)
    (hS : ∀ j, j < L → StepAt g disk (first + L) (first + (j : Int)) (if j = 0 then c else w (j - 1)) (w j) (w (j + 1)))
    (R : Option P → P → P → Prop)
    (hR : ∀ x0 x1 x3 i2 i3 after d, (∀ y0, x0 = some y0 → ∃ z, R z y0 x1) → Reason g x0 x1 x3 i2 i3 after d → R x0 x1 x3) :
    ∀ j, j < L → ∀ (i k : Nat) (p q : Part P D), (w j).parts[i]? = some p → p.next = k → (w (j + 1)).parts[k]? = some q →
      ∃ x0, Predecessor ((if j = 0 then c else w (j - 1)).parts.map Part.x) p x0 ∧ R x0 p.x q.x := by
  intro j
  induction j with
  | zero =>
    intro hj i k p q hp hk hq
    obtain ⟨b1, b2', b3, b3', cnt, e1, e2, e3, e4, e5, e6, e7, e8, e9⟩ := (hS 0 hj).step
    obtain ⟨p1, p', x0, x3, a1, a2, a3, a4, a5, a6⟩ := C77_links_have_reasons g hg _ _ _ _ _ _ _ _ e1 e4 (fun q hq => (hd _ q hq).1) i k
      ⟨p, hp, hk⟩
    rw [hp] at a2
    cases a2
    rw [← e8, List.getElem?_map, hq] at a5
    simp only [Option.map_some, Option.some.injEq] at a5
    obtain ⟨b, hb, hb'⟩ := map_get_some e7 hp
    rw [a1] at hb
    cases hb
    refine ⟨x0, ?_, ?_⟩
    · unfold Predecessor at a4 ⊢
      rwa [← hb']
    · rw [a3, a5]
      refine hR _ _ _ _ _ _ _ ?_ a6
      intro y0 hy
      obtain ⟨m, q0, h, -⟩ := predecessor_linked h0 hS hj hp hb'.symm a4 hy
      exact absurd h (by omega)
  | succ j ih =>
    intro hj i k p q hp hk hq
    obtain ⟨b1, b2', b3, b3', cnt, e1, e2, e3, e4, e5, e6, e7, e8, e9⟩ := (hS (j + 1) hj).step
    obtain ⟨p1, p', x0, x3, a1, a2, a3, a4, a5, a6⟩ := C77_links_have_reasons g hg _ _ _ _ _ _ _ _ e1 e4 (fun q hq => (hd _ q hq).1) i k
      ⟨p, hp, hk⟩
    rw [hp] at a2
    cases a2
    rw [← e8, List.getElem?_map, hq] at a5
    simp only [Option.map_some, Option.some.injEq] at a5
    obtain ⟨b, hb, hb'⟩ := map_get_some e7 hp
    rw [a1] at hb
    cases hb
    refine ⟨x0, ?_, ?_⟩
    · unfold Predecessor at a4 ⊢
      rwa [← hb']
    · rw [a3, a5]
      refine hR _ _ _ _ _ _ _ ?_ a6
      intro y0 hy
      obtain ⟨m, q0, -, h1, h2, h3, -⟩ := predecessor_linked h0 hS hj hp hb'.symm a4 hy
      simp only [Nat.add_sub_cancel] at h1
      obtain ⟨z, -, hz⟩ := ih (by omega) m i q0 p h1 h3 hp
      rw [h2, a3] at hz
      exact ⟨z, hz⟩

/-- One trajectory `y` in a run: particle `num n` of frame `n`. If links satisfy `R` and `R` tells the trajectory from the rest, and the
trajectory is always served, then it is followed. -/
theorem run_follows {g : Geo P J C I D} (hg : SearchSane g) {disk : Int → Frame P D I}
    (hd : ∀ n, ∀ p ∈ (disk n).parts, Unlinked p) {first : Int} {L : Nat} {c : Frame P D I} {w : Nat → Frame P D I}
    (hw0 : (w 0).parts.map Part.x = (disk first).parts.map Part.x)
    (h0 : ∀ p ∈ (w 0).parts, p.prev = PREV_NONE) (hlast : ∀ p ∈ (w L).parts, p.next = NEXT_NONE)
    (hS : ∀ j, j < L → StepAt g disk (first + L) (first + (j : Int)) (if j = 0 then c else w (j - 1)) (w j) (w (j + 1)))
    (R : Option P → P → P → Prop)
    (hR : ∀ x0 x1 x3 i2 i3 after d, (∀ y0, x0 = some y0 → ∃ z, R z y0 x1) → Reason g x0 x1 x3 i2 i3 after d → R x0 x1 x3)
    (y : Nat → P) (num : Nat → Nat) (hy : ∀ j, j ≤ L → ((disk (first + (j : Int))).parts.map Part.x)[num j]? = some (y j))
    (hsep : ∀ j, j < L → ∀ (k : Nat) (x : P), ((disk (first + (j : Int) + 1)).parts.map Part.x)[k]? = some x → (∃ z, R z (y j) x) →
      k = num (j + 1))
    (hsep' : ∀ j, j < L → ∀ (k : Nat) (x : P), ((disk (first + (j : Int))).parts.map Part.x)[k]? = some x → (∃ z, R z x (y (j + 1))) →
      k = num j)
    (hserved : ∀ j, j < L → ∀ (x0 : Option P), (if j = 0 then x0 = none else x0 = some (y (j - 1))) →
      ∀ (b0 b1 b3 b1' b2' b3' : Frame P D I) (cnt : Nat) (p : Part P D), stepFrames g b0 b1 (disk (first + (j : Int) + 1)) b3 = .ok (b1', b2', b3', cnt) →
      b1.img = (disk (first + (j : Int))).img → (∀ p ∈ b1.parts, p.next = NEXT_NONE) → (j + 2 ≤ L → b3 = disk (first + (j : Int) + 2)) →
      b1.parts[num j]? = some p → p.x = y j → Predecessor (b0.parts.map Part.x) p x0 →
      ∃ d, Served g x0 p.x (disk (first + (j : Int) + 1)).img b3.img b1'.parts b2'.parts b3'.parts (num j) d) :
    ∀ j, j ≤ L → ∃ p, (w j).parts[num j]? = some p ∧ p.x = y j ∧ p.prev = (if j = 0 then PREV_NONE else (num (j - 1) : Int)) ∧
      p.next = (if j = L then NEXT_NONE else (num (j + 1) : Int)) := by
  have hlinks := run_links hg hd h0 hS R hR
  -- the part about the next frame, from the part about the frame before
  have hnext : ∀ j, j ≤ L → ∀ p, (w j).parts[num j]? = some p → p.x = y j →
      p.prev = (if j = 0 then PREV_NONE else (num (j - 1) : Int)) → p.next = (if j = L then NEXT_NONE else (num (j + 1) : Int)) := by
    intro j hj p hp hx hprev
    split_ifs with hjL
    · subst hjL
      exact hlast p (List.mem_of_getElem? hp)
    have hj' : j < L := by omega
    obtain ⟨b1, b2', b3, b3', cnt, e1, e2, e3, e4, e5, e6, e7, e8, e9⟩ := (hS j hj').step
    obtain ⟨p1, hp1, hp1'⟩ := map_get_some e7 hp
    obtain ⟨p2, hp2, hp2'⟩ := map_get_some e6 hp
    rw [hp1] at hp2
    cases hp2
    -- the predecessor
    have hpred : ∃ x0, (if j = 0 then x0 = none else x0 = some (y (j - 1))) ∧
        Predecessor ((if j = 0 then c else w (j - 1)).parts.map Part.x) p1 x0 := by
      by_cases h : j = 0
      · refine ⟨none, by rw [if_pos h], ?_⟩
        rw [if_pos h] at hprev
        unfold Predecessor
        rw [if_pos (by rw [hp1', hprev]; decide)]
      · refine ⟨some (y (j - 1)), by rw [if_neg h], ?_⟩
        rw [if_neg h] at hprev
        unfold Predecessor
        rw [hp1', hprev, if_neg (by omega)]
        refine ⟨by simp, ?_⟩
        rw [if_neg h]
        have hpos := (hS (j - 1) (by omega)).pos
        rw [hpos]
        simpa using hy (j - 1) (by omega)
    obtain ⟨x0, hx0, hpred⟩ := hpred
    obtain ⟨d, k, d', x3, -, s2, s3, s4⟩ := hserved j hj' x0 hx0 _ b1 b3 (w j) b2' b3' cnt p1 e1 e2 e4
      (fun h => e5 (by omega)) hp1 (by rw [hp2', hx]) hpred
    have hRk : R x0 p1.x x3 := by
      refine hR _ _ _ _ _ _ _ ?_ s3
      intro y0 hy0
      obtain ⟨m, q0, h1, h2, h3, h4, -⟩ := predecessor_linked h0 hS hj' hp hp1'.symm hpred hy0
      have hp' := hp
      rw [show j = j - 1 + 1 by omega] at hp'
      obtain ⟨z, -, hz⟩ := hlinks (j - 1) (by omega) m (num j) q0 p h2 h4 (by rw [show j - 1 + 1 = j by omega]; exact hp)
      rw [h3] at hz
      exact ⟨z, by rw [hp2']; exact hz⟩
    have hpos' := (hS j hj').pos'
    have hk : k = num (j + 1) := by
      refine hsep j hj' k x3 ?_ ⟨x0, by rw [hp2', hx] at hRk; exact hRk⟩
      rw [← hpos', e8]
      exact s2
    subst hk
    rcases s4 with ⟨p', hp', h1, -⟩ | ⟨-, m, p', hm, hp', h1, -⟩
    · rw [hp] at hp'
      cases hp'
      exact h1
    · exfalso
      have hkq : ∃ q, (w (j + 1)).parts[num (j + 1)]? = some q ∧ q.x = y (j + 1) := by
        have := hy (j + 1) (by omega)
        push_cast at this
        rw [← add_assoc, ← hpos', List.getElem?_map, Option.map_eq_some_iff] at this
        exact this
      obtain ⟨q, hq, hqx⟩ := hkq
      obtain ⟨z, -, hz⟩ := hlinks j hj' m (num (j + 1)) p' q hp' h1 hq
      refine hm (hsep' j hj' m p'.x ?_ ⟨z, by rw [hqx] at hz; exact hz⟩)
      rw [← (hS j hj').pos, List.getElem?_map, hp']
      rfl
  intro j
  induction j with
  | zero =>
    intro _
    have := hy 0 (by omega)
    simp only [Nat.cast_zero, add_zero] at this
    rw [← hw0, List.getElem?_map, Option.map_eq_some_iff] at this
    obtain ⟨p, hp, hx⟩ := this
    refine ⟨p, hp, hx, h0 p (List.mem_of_getElem? hp), hnext 0 (by omega) p hp hx (h0 p (List.mem_of_getElem? hp))⟩
  | succ j ih =>
    intro hj
    obtain ⟨p, hp, hx, hpr, hnx⟩ := ih (by omega)
    rw [if_neg (by omega)] at hnx
    obtain ⟨q, hq, hq'⟩ := ((hS j (by omega)).links.1 (num j) (num (j + 1))).1 ⟨p, hp, hnx⟩
    have hqx : q.x = y (j + 1) := by
      have := hy (j + 1) hj
      push_cast at this
      rw [← add_assoc, ← (hS j (by omega)).pos', List.getElem?_map, hq] at this
      simpa using this
    have hqp : q.prev = (if j + 1 = 0 then PREV_NONE else (num (j + 1 - 1) : Int)) := by
      rw [if_neg (by omega)]
      exact hq'
    exact ⟨q, hq, hqx, hqp, hnext (j + 1) hj q hq hqx hqp⟩

end
end Verif.Track
