/-
C82-C84: the backward run.
-/
import Verif.Proofs.BackStep

set_option linter.unusedSectionVars false

namespace Verif.Track
open Verif.Track.Spec

section
variable {P J C I D : Type} [Field D] [LinearOrder D]

/-- C82: every new backward link of a backward step has a reason. A particle of the current frame `b1` keeps its
link to the earlier frame, unless it has none and is linked to the later frame `b0`; then it may get a link to a particle
of `b2` that has no link to the later frame, with velocity, angle and acceleration accepted (`BackReason`), and if that
particle has a path of its own, the test of the continuation is passed as well. The decision value stored with the link
is the one of that reason. Positions and links to the later frame stay. Frames come from disk, without candidates. -/
theorem C82_backward_links (g : Geo P J C I D) (hg : SearchSane g) (xz : P → Bool) (y : P → D)
    (b0 b1 b2 b3 b1' b2' : Frame P D I) (hc : ∀ p ∈ b1.parts, p.cands = [])
    (hv : ∀ q ∈ b2.parts, q.prev = PREV_NONE ∨ 0 ≤ q.prev)
    (hs : backStepFrames g xz y b0 b1 b2 b3 = .ok (b1', b2'))
    (i : Nat) (p : Part P D) (hp : b1.parts[i]? = some p) :
    ∃ p', b1'.parts[i]? = some p' ∧ p'.x = p.x ∧ p'.next = p.next ∧
      (p'.prev = p.prev ∨ ∃ (k : Nat) (q r : Part P D), p'.prev = k ∧ p.prev = PREV_NONE ∧
        0 ≤ p.next ∧ b0.parts[p.next.toNat]? = some r ∧
        b2.parts[k]? = some q ∧ q.next = NEXT_NONE ∧ BackReason g r.x p.x q.x p'.final ∧
        (q.prev = PREV_NONE ∨ ∃ q4, b3.parts[q.prev.toNat]? = some q4 ∧ BackContinues g r.x p.x q.x q4.x)) := by
  obtain ⟨-, -, -, -, -, -, h, -, -⟩ := backStepFrames_spec hg hc hs
  obtain ⟨p', h1, h2, h3, h4⟩ := h i p hp
  refine ⟨p', h1, h2, h3, h4.imp id ?_⟩
  rintro ⟨k, q, r, a1, a2, a3, a4, a5, a6, -, a8, a9⟩
  refine ⟨k, q, r, a1, a2, a3, a4, a5, a6, a8, ?_⟩
  rcases a9 with a9 | ⟨q4, a9, a10⟩
  · exact Or.inl a9
  · rcases hv q (List.mem_of_getElem? a5) with h | h
    · exact Or.inl h
    · exact Or.inr ⟨q4, pyGetI_nonneg h a9, a10⟩

/-- C83 (refuted): the add flag has no effect on a backward step. Whatever the geometry, the flag and the targets, the
step returns frames with the particles, targets and correspondences it was given: no particle is ever added. -/
theorem C83_no_particle_added_refuted (g : Geo P J C I D) (hg : SearchSane g) (xz : P → Bool) (y : P → D)
    (b0 b1 b2 b3 b1' b2' : Frame P D I) (hc : ∀ p ∈ b1.parts, p.cands = [])
    (hs : backStepFrames g xz y b0 b1 b2 b3 = .ok (b1', b2')) :
    b1'.img = b1.img ∧ b2'.img = b2.img ∧ SamePositions b1.parts b1'.parts ∧ SamePositions b2.parts b2'.parts := by
  obtain ⟨-, -, h3, h4, h5, h6, h7, h8, -⟩ := backStepFrames_spec hg hc hs
  refine ⟨h3, h4, ?_, ?_⟩
  · apply List.ext_getElem?
    intro i
    simp only [List.getElem?_map]
    cases hp : b1.parts[i]? with
    | none =>
      have : b1'.parts[i]? = none := by
        rw [List.getElem?_eq_none_iff] at hp ⊢; omega
      rw [this]
    | some p =>
      obtain ⟨p', a, e, -⟩ := h7 i p hp
      rw [a, Option.map_some, e]; rfl
  · apply List.ext_getElem?
    intro i
    simp only [List.getElem?_map]
    cases hp : b2.parts[i]? with
    | none =>
      have : b2'.parts[i]? = none := by
        rw [List.getElem?_eq_none_iff] at hp ⊢; omega
      rw [this]
    | some p =>
      obtain ⟨nx, a, -⟩ := h8 i p hp
      rw [a]; rfl

/-! ### The whole backward run -/

theorem mutual_congr_next {b b' x : List (Part P D)} (hb : b'.map Part.next = b.map Part.next)
    (h : Mutual b x) : Mutual b' x := by
  have hl : b'.length = b.length := by
    have := congrArg List.length hb; simpa using this
  have hp : ∀ (k : Nat) (v : Int), PointsTo b' k v ↔ PointsTo b k v := by
    intro k v
    have e := congrArg (fun l => l[k]?) hb
    simp only [List.getElem?_map] at e
    unfold PointsTo
    cases h1 : b[k]? with
    | none => rw [h1] at e; simp at e; simp [e]
    | some q =>
      rw [h1] at e
      cases h2 : b'[k]? with
      | none => rw [h2] at e; simp at e
      | some q' =>
        rw [h2] at e
        simp only [Option.map_some, Option.some.injEq] at e
        simp [e]
  refine ⟨fun h' k => (hp h' k).trans (h.1 h' k), ?_, ?_⟩
  · intro q hq
    have : q.next ∈ b'.map Part.next := List.mem_map_of_mem hq
    rw [hb, List.mem_map] at this
    obtain ⟨q0, hq0, e⟩ := this
    rw [← e]; exact h.2.1 q0 hq0
  · intro p hpm
    rw [hl]; exact h.2.2 p hpm

theorem map_eq_of_getElem? {α β : Type} {l l' : List α} (f : α → β) (hl : l'.length = l.length)
    (h : ∀ (i : Nat) (a : α), l[i]? = some a → ∃ a', l'[i]? = some a' ∧ f a' = f a) : l'.map f = l.map f := by
  apply List.ext_getElem?
  intro i
  simp only [List.getElem?_map]
  cases hp : l[i]? with
  | none =>
    have : l'[i]? = none := by
      rw [List.getElem?_eq_none_iff] at hp ⊢; omega
    rw [this]
  | some p =>
    obtain ⟨p', a, e⟩ := h i p hp
    rw [a, Option.map_some, e]; rfl

/-- Why the links of the written frame `f` (number `n`) are there: those to frame `n - 1` were on disk already or have a
reason in terms of the positions on disk. -/
def BackKnown (g : Geo P J C I D) (disk : Int → Frame P D I) (n : Int) (f : Frame P D I) : Prop :=
  ∀ (i : Nat) (p p' : Part P D), (disk n).parts[i]? = some p → f.parts[i]? = some p' →
    p'.prev = p.prev ∨ ∃ (k : Nat) (x0 x3 : P), p'.prev = k ∧ p.prev = PREV_NONE ∧ 0 ≤ p'.next ∧
      ((disk (n + 1)).parts.map Part.x)[p'.next.toNat]? = some x0 ∧
      ((disk (n - 1)).parts.map Part.x)[k]? = some x3 ∧ BackReason g x0 p'.x x3 p'.final

/-- Written frames in the order of a backward run, starting with the last frame of the sequence. -/
def BackChain (l : List (Int × Frame P D I)) : Prop :=
  List.IsChain (fun f g => g.1 + 1 = f.1 ∧ Mutual g.2.parts f.2.parts) l

/-- State before the backward step `last - 1 - i`; the sequence begins with frame `last - L`. -/
structure BRInv (g : Geo P J C I D) (disk : Int → Frame P D I) (last : Int) (L i : Nat) (r : Run (Frame P D I)) :
    Prop where
  buf : ∃ a b c d, r.buf = [a, b, c, d] ∧ a.parts.map Part.x = (disk (last - i)).parts.map Part.x ∧
    (∀ (j : Nat) (p : Part P D), (disk (last - 1 - i)).parts[j]? = some p → ∃ nx : Int,
      b.parts[j]? = some { p with next := nx } ∧ (p.next ≠ NEXT_NONE → nx = p.next)) ∧
    b.parts.length = (disk (last - 1 - i)).parts.length ∧
    Mutual b.parts a.parts ∧
    (i + 2 ≤ max L 3 → c = disk (last - 2 - i)) ∧ (i + 3 ≤ max L 3 → d = disk (last - 3 - i)) ∧
    ∃ l, (last, disk last) :: writesOf r.log = l ++ [(last - i, a)]
  chain : BackChain ((last, disk last) :: writesOf r.log)
  writes : ∀ w ∈ writesOf r.log, KeepsLinks (disk w.1).parts w.2.parts ∧ BackKnown g disk w.1 w.2

theorem BRInv.step {g : Geo P J C I D} (hg : SearchSane g) {xz : P → Bool} {y : P → D}
    {disk : Int → Frame P D I} {last : Int} {L i : Nat}
    (hm : ∀ n, last - L ≤ n → n < last → Mutual (disk n).parts (disk (n + 1)).parts)
    (hc : ∀ n, ∀ p ∈ (disk n).parts, p.cands = []) {r r' : Run (Frame P D I)}
    (hi : i + 1 < L) (hI : BRInv g disk last L i r)
    (h : backStep disk (backBuf g xz y) (last - L) (last - 1 - i) r = .ok r') :
    BRInv g disk last L (i + 1) r' := by
  obtain ⟨⟨a, b, c, d, hb, ha, hbp, hbl, hab, hcc, hdd, l, hl⟩, hch, hw⟩ := hI
  have hpl : ∀ b b', backBuf g xz y b = .ok b' → b'.length = b.length := by
    intro x x' hx
    unfold backBuf at hx
    split at hx
    · obtain ⟨s, -, hx⟩ := bind_ok hx
      cases hx; rfl
    · cases hx
  obtain ⟨a1, b1, c1, d1, h1, rfl⟩ := backStep_ok h hpl (by rw [hb]; rfl)
  rw [hb] at h1
  unfold backBuf at h1
  obtain ⟨⟨b', c'⟩, hst, h1⟩ := bind_ok h1
  cases h1
  have hcb : ∀ p ∈ b.parts, p.cands = [] := by
    intro q hq
    obtain ⟨j, hj⟩ := List.getElem?_of_mem hq
    have hlt := (List.getElem?_eq_some_iff.1 hj).1
    obtain ⟨p, hp⟩ : ∃ p, (disk (last - 1 - i)).parts[j]? = some p := ⟨_, List.getElem?_eq_getElem (by omega)⟩
    obtain ⟨nx, e, -⟩ := hbp j p hp
    rw [hj] at e
    rw [Option.some.inj e]
    exact hc _ p (List.mem_of_getElem? hp)
  have hcd : c = disk (last - 2 - i) := hcc (by omega)
  subst hcd
  have hmb : Mutual (disk (last - 2 - i)).parts b.parts := by
    have := hm (last - 2 - i) (by omega) (by omega)
    rw [show last - 2 - (i : Int) + 1 = last - 1 - i by ring] at this
    refine mutual_congr ?_ this
    exact map_eq_of_getElem? _ hbl (fun j p hp => by
      obtain ⟨nx, e, -⟩ := hbp j p hp
      exact ⟨_, e, rfl⟩)
  obtain ⟨-, -, -, -, f5, f6, f7, f8, f9⟩ := backStepFrames_spec hg hcb hst
  have f9 := f9 hmb
  have hcond : (last - 1 - (i : Int) > last - L + 2) ↔ i + 3 < L := by omega
  have hwr : writesOf (r.log ++ [Ev.step (last - 1 - (i : Int)) r.buf, Ev.write (last - 1 - (i : Int)) b'] ++
      if last - 1 - (i : Int) > last - L + 2 then [Ev.read (F := Frame P D I) (last - 1 - i - 3)] else []) =
      writesOf r.log ++ [(last - 1 - (i : Int), b')] := by
    split_ifs <;> simp [writesOf]
  have hxs : b'.parts.map Part.x = (disk (last - 1 - i)).parts.map Part.x := by
    refine map_eq_of_getElem? _ (f5.trans hbl) (fun j p hp => ?_)
    obtain ⟨nx, e, -⟩ := hbp j p hp
    obtain ⟨p', e1, e2, -⟩ := f7 j _ e
    exact ⟨p', e1, e2⟩
  have hba : Mutual b'.parts a.parts := by
    refine mutual_congr_next ?_ hab
    exact map_eq_of_getElem? _ f5 (fun j p hp => by
      obtain ⟨p', e1, -, e2, -⟩ := f7 j _ hp
      exact ⟨p', e1, e2⟩)
  refine ⟨⟨b', c', d, _, rfl, ?_, ?_, ?_, f9, ?_, ?_, ?_⟩, ?_, ?_⟩
  · rw [hxs]; congr 3; push_cast; ring
  · intro j p hp
    rw [show last - 1 - ((i + 1 : Nat) : Int) = last - 2 - i by push_cast; ring] at hp
    obtain ⟨nx, e1, e2⟩ := f8 j p hp
    refine ⟨nx, e1, fun hne => ?_⟩
    rcases e2 with e2 | ⟨k, e2, -⟩
    · exact e2
    · exact absurd e2 hne
  · rw [show last - 1 - ((i + 1 : Nat) : Int) = last - 2 - i by push_cast; ring]
    exact f6
  · intro hh
    rw [hdd (by omega)]; congr 1; push_cast; ring
  · intro hh
    rw [if_pos (hcond.2 (by omega))]; congr 1; push_cast; ring
  · refine ⟨(last, disk last) :: writesOf r.log, ?_⟩
    simp only [hwr, List.cons_append]
    congr 4; push_cast; ring
  · simp only [hwr]
    unfold BackChain at hch ⊢
    rw [← List.cons_append, hl, List.isChain_append]
    rw [hl] at hch
    refine ⟨hch, by simp, ?_⟩
    intro x hx z hz
    simp at hx hz
    subst hx hz
    exact ⟨by simp only; ring, hba⟩
  · simp only [hwr]
    intro w hw'
    rw [List.mem_append, List.mem_singleton] at hw'
    rcases hw' with hw' | rfl
    · exact hw w hw'
    refine ⟨⟨f5.trans hbl, ?_⟩, ?_⟩
    · intro j p hp
      obtain ⟨nx, e, e'⟩ := hbp j p hp
      obtain ⟨p', e1, e2, e3, e4⟩ := f7 j _ e
      refine ⟨p', e1, e2, fun hne => by rw [e3]; exact e' hne, fun hne => ?_⟩
      rcases e4 with e4 | ⟨k, q, r, -, e5, -⟩
      · exact e4
      · exact absurd e5 hne
    · intro j p p' hp hp'
      obtain ⟨nx, e, e'⟩ := hbp j p hp
      obtain ⟨p'', e1, e2, e3, e4⟩ := f7 j _ e
      simp only at hp'
      rw [hp'] at e1
      cases e1
      refine e4.imp id ?_
      rintro ⟨k, q, r, q1, q2, q3, q4, q5, -, -, q8, -⟩
      refine ⟨k, r.x, q.x, q1, q2, by rw [e3]; exact q3, ?_, ?_, ?_⟩
      · rw [e3]
        have := congrArg (fun l : List P => l[nx.toNat]?) ha
        simp only [List.getElem?_map, q4] at this ⊢
        simp only [show last - 1 - (i : Int) + 1 = last - i by ring]
        rw [← this]; rfl
      · simp only [show last - 1 - (i : Int) - 1 = last - 2 - i by ring]
        simp [q5]
      · rw [e2]; exact q8

theorem BRInv.steps_all {g : Geo P J C I D} (hg : SearchSane g) {xz : P → Bool} {y : P → D}
    {disk : Int → Frame P D I} {last : Int} {L : Nat}
    (hm : ∀ n, last - L ≤ n → n < last → Mutual (disk n).parts (disk (n + 1)).parts)
    (hc : ∀ n, ∀ p ∈ (disk n).parts, p.cands = []) (k : Nat) :
    ∀ i r r', i + k + 1 = L → BRInv g disk last L i r →
    backSteps disk (backBuf g xz y) (last - L) k (last - 1 - i) r = .ok r' → BRInv g disk last L (L - 1) r' := by
  induction k with
  | zero =>
    intro i r r' hi hI h
    cases h
    have : i = L - 1 := by omega
    subst this; exact hI
  | succ k ih =>
    intro i r r' hi hI h
    unfold backSteps at h
    obtain ⟨r1, h1, h⟩ := bind_ok h
    refine ih (i + 1) r1 r' (by omega) (BRInv.step hg hm hc (by omega) hI h1) ?_
    rw [← h]; congr 1; push_cast; ring

/-- C84 (partial): a backward run over a sequence of consistently linked frames `last - L .. last`. It writes the frames
`last - 1` down to `last - L + 1` with their own numbers, in this order; neighbouring ones (the last frame of the sequence
included) agree on their links, every link that was there is kept, no particle moves, and new links to the frame
before have a reason. At the end it writes the updated first frame, consistent with the rest, but under the number
`last - L + 1`. Missing: that the first frame is written under its own number (C21). -/
theorem C84_backward_run_partial (g : Geo P J C I D) (hg : SearchSane g) (xz : P → Bool) (y : P → D)
    (disk : Int → Frame P D I) (last : Int) (L : Nat) (hL : 2 ≤ L)
    (hm : ∀ n, last - L ≤ n → n < last → Mutual (disk n).parts (disk (n + 1)).parts)
    (hc : ∀ n, ∀ p ∈ (disk n).parts, p.cands = [])
    (a b c d : Frame P D I) (r : Run (Frame P D I))
    (h : backRun disk (backBuf g xz y) (last - L) last [a, b, c, d] = .ok r) :
    ∃ ws f, writesOf r.log = ws ++ [(last - L + 1, f)] ∧ ws.length = L - 1 ∧
      BackChain (((last, disk last) :: ws) ++ [(last - L, f)]) ∧
      (∀ w ∈ ws, KeepsLinks (disk w.1).parts w.2.parts ∧ BackKnown g disk w.1 w.2) ∧
      KeepsLinks (disk (last - L)).parts f.parts := by
  unfold backRun at h
  obtain ⟨r1, h1, h⟩ := bind_ok h
  have hn : (last - 1 - (last - (L : Int))).toNat = L - 1 := by omega
  rw [hn, backStart_eq] at h1
  have h0 : BRInv g disk last L 0 ⟨[disk last, disk (last - 1), disk (last - 2), disk (last - 3)],
        [.read last, .read (last - 1), .read (last - 2), .read (last - 3)]⟩ := by
    refine ⟨⟨_, _, _, _, rfl, by simp, ?_, by simp, ?_, ?_, ?_, ⟨[], by simp [writesOf]⟩⟩, ?_, ?_⟩
    · intro j p hp
      simp at hp
      exact ⟨p.next, hp, fun _ => rfl⟩
    · have := hm (last - 1) (by omega) (by omega)
      simpa using this
    · simp
    · simp
    · simp [writesOf, BackChain]
    · simp [writesOf]
  have h2 := BRInv.steps_all hg hm hc (L - 1) 0 _ r1 (by omega) h0 (by rw [← h1]; congr 1; simp)
  split_ifs at h with hz hq
  swap
  · exact absurd (by omega) hq
  obtain ⟨⟨a', b', c', d', hb, -, hbp, hbl, hab, -, -, l, hl⟩, hch, hw⟩ := h2
  have e : r = ⟨[b', c', d', a'], r1.log ++ [.write (last - L + 1) b']⟩ := by
    simp [writeFromStart, Run.next, fbNext, pyGet, bind, Except.bind, hb] at h
    rw [← h]
  subst e
  have hLe : last - 1 - ((L - 1 : Nat) : Int) = last - L := by omega
  rw [hLe] at hbp hbl
  have hlen : ∀ (l : List (Int × Frame P D I)) (n m : Int) (f f' : Frame P D I),
      BackChain ((n, f) :: l) → (∃ l', (n, f) :: l = l' ++ [(m, f')]) → (l.length : Int) = n - m := by
    intro l
    induction l with
    | nil =>
      intro n m f f' _ hl
      obtain ⟨l', hl⟩ := hl
      have := congrArg List.getLast? hl
      simp at this
      simp; omega
    | cons w l ih =>
      intro n m f f' hch hl
      obtain ⟨l', hl⟩ := hl
      unfold BackChain at hch
      rw [List.isChain_cons_cons] at hch
      have h3 := ih w.1 m w.2 f' hch.2 (by
        cases l' with
        | nil => simp at hl
        | cons x l' => exact ⟨l', by simpa using (List.cons.inj hl).2⟩)
      have h4 := hch.1.1
      simp only at h4
      simp only [List.length_cons]
      push_cast
      omega
  refine ⟨writesOf r1.log, b', by simp [writesOf], ?_, ?_, hw, hbl, ?_⟩
  · have := hlen _ _ _ _ _ hch ⟨l, hl⟩
    omega
  · unfold BackChain at hch ⊢
    rw [List.isChain_append]
    refine ⟨hch, by simp, ?_⟩
    rw [hl]
    intro x hx z hz
    simp at hx hz
    subst hx hz
    exact ⟨by simp only; omega, hab⟩
  · intro j p hp
    obtain ⟨nx, e1, e2⟩ := hbp j p hp
    exact ⟨_, e1, rfl, e2, fun _ => rfl⟩

end

/-! A sequence with one particle per frame, moving right by 1 per frame. Forward tracking has linked it from frame 12 on;
going backward from frame 14 the path is extended to frames 11 and 10. -/

/-- Links of a list with one particle. -/
theorem mutual_one {P D : Type} [LinearOrder D] {p q : Part P D}
    (h : (p.next = NEXT_NONE ∧ q.prev = PREV_NONE) ∨ (p.next = 0 ∧ q.prev = 0)) : Mutual [p] [q] := by
  refine ⟨?_, ?_, ?_⟩
  · intro i k
    simp only [PointsTo, PointsBack, List.getElem?_singleton, NEXT_NONE, PREV_NONE] at *
    constructor
    · rintro ⟨p', h1, h2⟩
      split_ifs at h1 with hi
      cases h1
      have : k = 0 := by omega
      exact ⟨q, by simp [this], by omega⟩
    · rintro ⟨p', h1, h2⟩
      split_ifs at h1 with hi
      cases h1
      have : i = 0 := by omega
      exact ⟨p, by simp [this], by omega⟩
  · intro p' hp
    simp at hp
    subst hp
    rcases h with h | h
    · exact Or.inl h.1
    · exact Or.inr ⟨0, h.1, by simp⟩
  · intro p' hp
    simp at hp
    subst hp
    rcases h with h | h
    · exact Or.inl h.2
    · exact Or.inr ⟨0, h.2, by simp⟩

def backGeo : Geo ℚ Unit Unit Unit ℚ := { demoGeo with search := fun _ _ _ => .ok [⟨0, 4⟩, ⟨-1, 0⟩], add := true }

def backDisk (n : Int) : Frame ℚ ℚ Unit :=
  ⟨n, [⟨n, if 13 ≤ n then 0 else PREV_NONE, if 12 ≤ n then 0 else NEXT_NONE, [], 0⟩], ()⟩

theorem backDisk_mutual (n : Int) : Mutual (backDisk n).parts (backDisk (n + 1)).parts := by
  apply mutual_one
  by_cases h : 12 ≤ n
  · right
    constructor
    · simp [h]
    · rw [if_pos (by omega)]
  · left
    constructor
    · simp [h]
    · rw [if_neg (by omega)]

theorem backGeo_sane : SearchSane backGeo := by
  intro x v i w h f hf
  cases h
  simp at hf
  rcases hf with rfl | rfl <;> simp

/-- What the example run writes: file number, position, link back, link forward of each particle. -/
def backDemo : Option (List (Int × List (ℚ × Int × Int))) :=
  match backRun backDisk (backBuf backGeo (fun _ => true) id) (14 - (4 : Nat)) 14 (List.replicate 4 ⟨0, [], ()⟩) with
  | .ok r => some ((writesOf r.log).map (fun w => (w.1, w.2.parts.map (fun p => (p.x, p.prev, p.next)))))
  | .error _ => none

/-- The hypotheses of C82-C84 are met by this run, and it makes two new links. -/
example : SearchSane backGeo ∧ (∀ n, Mutual (backDisk n).parts (backDisk (n + 1)).parts) ∧
    (∀ n, ∀ p ∈ (backDisk n).parts, p.cands = []) ∧
    backDemo = some [(13, [(13, 0, 0)]), (12, [(12, 0, 0)]), (11, [(11, 0, 0)]), (11, [(10, -1, 0)])] := by
  refine ⟨backGeo_sane, backDisk_mutual, ?_, by decide +kernel⟩
  intro n p hp
  simp [backDisk] at hp
  rw [hp]

/-- C84 (refuted as a whole): of the frames the example run writes, the last one replaces frame 11 by the particle of
frame 10; frame 10 is not written. -/
theorem C84_refuted : ∃ r, backRun backDisk (backBuf backGeo (fun _ => true) id) (14 - (4 : Nat)) 14
      (List.replicate 4 ⟨0, [], ()⟩) = .ok r ∧
    (∃ f, (11, f) ∈ writesOf r.log ∧ ¬ KeepsLinks (backDisk 11).parts f.parts) ∧
    ∀ f, (10, f) ∉ writesOf r.log := by
  have hd : backDemo = some [(13, [(13, 0, 0)]), (12, [(12, 0, 0)]), (11, [(11, 0, 0)]), (11, [(10, -1, 0)])] := by
    decide +kernel
  unfold backDemo at hd
  split at hd
  swap
  · simp at hd
  rename_i r hr
  refine ⟨r, hr, ?_, ?_⟩
  · have hd := Option.some.inj hd
    have hm : ((11 : Int), [((10 : ℚ), (-1 : Int), (0 : Int))]) ∈
        (writesOf r.log).map (fun w => (w.1, w.2.parts.map (fun p => (p.x, p.prev, p.next)))) := by
      rw [hd]; simp
    rw [List.mem_map] at hm
    obtain ⟨w, hw, e⟩ := hm
    simp only [Prod.mk.injEq] at e
    refine ⟨w.2, by rw [← e.1]; exact hw, ?_⟩
    rintro ⟨-, h⟩
    obtain ⟨p', h1, h2, -⟩ := h 0 _ rfl
    have := congrArg (fun l => l[0]?) e.2
    simp [h1, h2] at this
  · intro f hf
    have hd := congrArg (List.map Prod.fst) (Option.some.inj hd)
    have : (10 : Int) ∈ (writesOf r.log).map Prod.fst := List.mem_map_of_mem hf
    rw [List.map_map] at hd
    simp only [Function.comp_def] at hd
    rw [hd] at this
    simp at this

/-- The same geometry, with nothing found by the search, but unmatched targets at position 10 in four cameras. -/
def backAddGeo : Geo ℚ Unit Unit Unit ℚ :=
  { backGeo with
    search := fun _ _ _ => .ok [⟨-1, 0⟩]
    assess := fun _ _ => .ok (4, (), ())
    pointPos := fun _ => .ok 10 }

/-- Where the particle of frame 10 is missing but seen by four cameras at the expected position, inside the volume:
the forward rules would add it, the backward step does not. -/
example : SearchSane backAddGeo ∧ backAddGeo.add = true ∧
    Triangulated backAddGeo () (backAddGeo.predict 12 11) 10 ∧ BackReason backAddGeo 12 11 10 (1 / 4) ∧
    (match backStepFrames backAddGeo (fun _ => true) id (backDisk 12)
        ⟨11, [⟨11, PREV_NONE, 0, [], 0⟩], ()⟩ ⟨10, [], ()⟩ ⟨9, [], ()⟩ with
      | .ok s => decide (s.2.parts = [])
      | .error _ => false) = true := by
  refine ⟨?_, rfl, ⟨⟨(), 4, (), (), .same, rfl, by norm_num, rfl⟩, rfl⟩, ?_, by decide +kernel⟩
  · intro x v i w h f hf
    cases h
    simp at hf
    subst hf
    simp
  · refine ⟨?_, 0, 0, ?_, ?_, 4, ?_⟩ <;> norm_num [backAddGeo, backGeo, demoGeo, Smooth]

end Verif.Track
