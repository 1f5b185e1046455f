/-
C77-C79: why links are made.
-/
import Verif.Proofs.Gates
import Verif.Props.Linking

set_option linter.unusedSectionVars false

namespace Verif.Track
open Verif.Track.Spec

section
variable {P J C I D : Type} [Field D] [LinearOrder D]

/-- C77: every link that a forward step makes, from particle `i` to particle `k` of the next frame, has a reason
(`Reason`): a continuation in the frame after next, an existing path before, or a triangulated new position, with
acceleration and angle accepted; and the decision value stored with the link is the one of that reason. The frames
are as the run provides them (C16): no link forward from the current frame, none backward from the next one. -/
theorem C77_links_have_reasons (g : Geo P J C I D) (hg : SearchSane g)
    (b0 b1 b2 b3 b1' b2' b3' : Frame P D I) (cnt : Nat)
    (hs : stepFrames g b0 b1 b2 b3 = .ok (b1', b2', b3', cnt))
    (hn : ∀ p ∈ b1.parts, p.next = NEXT_NONE) (hp : ∀ q ∈ b2.parts, q.prev = PREV_NONE)
    (i k : Nat) (hl : PointsTo b1'.parts i k) :
    ∃ p p' x0 x3, b1.parts[i]? = some p ∧ b1'.parts[i]? = some p' ∧ p'.x = p.x ∧
      Predecessor (b0.parts.map Part.x) p x0 ∧
      (b2'.parts.map Part.x)[k]? = some x3 ∧
      Reason g x0 p.x x3 b2.img b3.img (b3'.parts.map Part.x) p'.final := by
  unfold stepFrames at hs
  obtain ⟨⟨c1, c2, c3⟩, h1, hs⟩ := bind_ok hs
  obtain ⟨⟨c, n, t⟩, h2, hs⟩ := bind_ok hs
  cases hs
  rw [List.range_eq_range'] at h1
  obtain ⟨e2, e3, -, elen, e6⟩ := searchLoop_spec hg _ 0 _ _ _ _ _ _ (by simp) h1
  have e7 := searchLoop_reason hg _ 0 _ _ _ _ _ _ (by simp) h1
  have hc2 : ∀ q ∈ c2.parts, q.prev = PREV_NONE := by
    obtain ⟨-, e, e1, e2⟩ := e2
    intro q hq
    rw [e1, List.mem_append] at hq
    rcases hq with h | h
    · exact hp q h
    · exact (e2 q h).1.1
  have old : ∀ (j : Nat) (q : Part P D), c1.parts[j]? = some q → ∃ (p : Part P D) (cs : List (D × Int)),
      b1.parts[j]? = some p ∧ q = { p with cands := cs } ∧ ∀ x ∈ cs, 0 ≤ x.2 ∧ x.2 < c2.parts.length := by
    intro j q hq
    have hlt := (List.getElem?_eq_some_iff.1 hq).1
    obtain ⟨p, hp⟩ : ∃ p, b1.parts[j]? = some p := ⟨_, List.getElem?_eq_getElem (by omega)⟩
    obtain ⟨cs, a1, -, a3⟩ := (e6 j p hp).2 (by omega)
    rw [hq] at a1
    exact ⟨p, cs, hp, Option.some.inj a1, a3⟩
  have hk : ∀ p ∈ c1.parts, ∀ x ∈ p.cands, 0 ≤ x.2 ∧ x.2 < c2.parts.length := by
    intro q hq x hx
    obtain ⟨j, hj⟩ := List.getElem?_of_mem hq
    obtain ⟨p, cs, -, rfl, a3⟩ := old j q hj
    exact a3 x hx
  have hnx : ∀ q ∈ c1.parts, q.next = NEXT_NONE := by
    intro q hq
    obtain ⟨j, hj⟩ := List.getElem?_of_mem hq
    obtain ⟨p, cs, hp, rfl, -⟩ := old j q hj
    exact hn p (List.mem_of_getElem? hp)
  obtain ⟨c', n', t', g1, g2, g3, g4, -, -, -⟩ := linkPhase_spec hc2 hk
  rw [h2] at g1
  cases g1
  obtain ⟨pl, hpl, hnext⟩ := hl
  have hlt := (List.getElem?_eq_some_iff.1 hpl).1
  simp only at hpl hlt
  obtain ⟨q, hq⟩ : ∃ q, c1.parts[i]? = some q := ⟨_, List.getElem?_eq_getElem (by omega)⟩
  obtain ⟨p, cs, hpi, hqe, -⟩ := old i q hq
  obtain ⟨nx, a1, a2, a3⟩ := g4 i q hq
  rw [hpl] at a1
  have hpl' := Option.some.inj a1
  obtain ⟨x0, p'', hx0, hp'', hprom⟩ := e7 i p hpi (by omega)
  rw [hq] at hp''
  cases Option.some.inj hp''
  have hnxk : nx = k := by rw [hpl'] at hnext; exact hnext
  rcases prelim_spec q with ⟨b1, b2⟩ | ⟨d, k', b1, b2, b3, b4⟩
  · exfalso
    have := a2 b1
    rw [hnx q (List.mem_of_getElem? hq)] at this
    rw [this] at hnxk
    simp [NEXT_NONE] at hnxk
  · rcases a3 d k' ⟨b1, b2⟩ with ⟨-, e⟩ | ⟨-, e⟩
    swap
    · rw [e] at hnxk
      simp [NEXT_NONE] at hnxk
    obtain ⟨kk, x3, hk1, hk2, hk3⟩ := hprom _ b1
    have hkk : kk = k := by
      simp only at hk1
      omega
    subst hkk
    refine ⟨p, pl, x0, x3, hpi, hpl, ?_, prevPos_spec hx0, ?_, ?_⟩
    · rw [hpl', b3, hqe]
    · have : n.map Part.x = c2.parts.map Part.x :=
        (linkPhase_mutual hc2 (fun p hp _ => hnx p hp) hk h2).2.2.1
      simp only [this]
      exact hk2
    · rw [hpl', b3]
      exact hk3

/-! #### The same for the frames that a run writes -/

/-- The positions `xs` belong to frame `m`, as written or as it is in the buffer at the beginning of step `first + i`
(frames in the buffer may still get new particles). -/
def Tie (first : Int) (i : Nat) (r : Run (Frame P D I)) (m : Int) (xs : List P) : Prop :=
  (∃ f, (m, f) ∈ writesOf r.log ∧ xs <+: f.xs) ∨
  ∃ a b c d, r.buf = [a, b, c, d] ∧
    ((m = first + i ∧ xs <+: b.xs) ∨ (m = first + i + 1 ∧ xs <+: c.xs) ∨ (m = first + i + 2 ∧ xs <+: d.xs))

/-- What is known about a written frame. -/
def Known (g : Geo P J C I D) (disk : Int → Frame P D I) (first : Int) (L : Nat) (w : List (Int × Frame P D I)) (tie : Int → List P → Prop)
    (n : Int) (f : Frame P D I) : Prop :=
  ∀ i k : Nat, PointsTo f.parts i k → ∃ p x0 x3 before next after i3, f.parts[i]? = some p ∧
    Predecessor before p x0 ∧ (first < n → ∃ f', (n - 1, f') ∈ w ∧ f'.xs = before) ∧
    next[k]? = some x3 ∧ tie (n + 1) next ∧ (n + 2 ≤ first + L → tie (n + 2) after ∧ i3 = (disk (n + 2)).img) ∧
    Reason g x0 p.x x3 (disk (n + 1)).img i3 after p.final

theorem Known.mono {g : Geo P J C I D} {disk : Int → Frame P D I} {first : Int} {L : Nat} {w w' : List (Int × Frame P D I)}
    {tie tie' : Int → List P → Prop} {n : Int} {f : Frame P D I} (h : Known g disk first L w tie n f)
    (hw : ∀ x ∈ w, x ∈ w') (ht : ∀ m xs, m ≤ first + L → tie m xs → tie' m xs) (hn : n + 1 ≤ first + L) :
    Known g disk first L w' tie' n f := by
  intro i k hl
  obtain ⟨p, x0, x3, before, next, after, i3, h1, h2, h3, h4, h5, h6, h7⟩ := h i k hl
  refine ⟨p, x0, x3, before, next, after, i3, h1, h2, ?_, h4, ht _ _ (by omega) h5,
    fun hh => ⟨ht _ _ hh (h6 hh).1, (h6 hh).2⟩, h7⟩
  intro hf
  obtain ⟨f', a, b⟩ := h3 hf
  exact ⟨f', hw _ a, b⟩

structure GInv (g : Geo P J C I D) (disk : Int → Frame P D I) (first : Int) (L i : Nat) (r : Run (Frame P D I)) : Prop where
  imgs : ∃ a b c d, r.buf = [a, b, c, d] ∧ (i + 1 ≤ max L 2 → WithAdded g (disk (first + i + 1)).img c.img) ∧
    (i + 2 ≤ max L 2 → WithAdded g (disk (first + i + 2)).img d.img)
  prev : 0 < i → ∃ a l, r.buf = a :: l ∧ (first + i - 1, a) ∈ writesOf r.log
  known : ∀ n f, (n, f) ∈ writesOf r.log → n + 1 ≤ first + i ∧ Known g disk first L (writesOf r.log) (Tie first i r) n f

theorem GInv.step {g : Geo P J C I D} (hg : SearchSane g) {disk : Int → Frame P D I} {first : Int}
    {L i : Nat} {r r' : Run (Frame P D I)} (hi : i < L) (hK : KInv disk first L i r)
    (hI : GInv g disk first L i r)
    (h : forwardStep disk (trackBuf g) (first + L) (first + i) r = .ok r') :
    GInv g disk first L (i + 1) r' := by
  obtain ⟨⟨a, b, c, d, hb, ub, kb, pb, mb, hc, hdd⟩, hch, hkp, hff, hlen⟩ := hK
  obtain ⟨a', b', c', d', h1, rfl⟩ := forwardStep_ok h (fun _ _ => trackBuf_length) (by rw [hb]; rfl)
  rw [hb] at h1
  obtain ⟨b0, b1, b2, b3, b1', b2', b3', k, e1, e2, hst⟩ := trackBuf_spec h1
  cases e1
  cases e2
  obtain ⟨uc, kc⟩ := hc (by omega)
  obtain ⟨s1, s2, s3, s4, -, -, s7, s8⟩ := stepFrames_spec hg ub uc hst
  have hreason := C77_links_have_reasons g hg _ _ _ _ _ _ _ _ hst ub (fun q hq => (uc q hq).1)
  have hwr : writesOf (r.log ++ [Ev.step (first + (i : Int)) r.buf, Ev.write (first + (i : Int)) b'] ++
      if first + (i : Int) < first + (L : Int) - 2 then [Ev.read (first + (i : Int) + 3)] else []) =
      writesOf r.log ++ [(first + (i : Int), b')] := by
    split_ifs <;> simp [writesOf]
  have hsame : b'.xs = b.xs := s2
  have hc' : c.xs <+: c'.xs := by
    obtain ⟨e, he⟩ := s8
    exact ⟨e, he.symm⟩
  have hd' : d.xs <+: d'.xs := by
    obtain ⟨e, he⟩ := s7.xs
    exact ⟨e, he.symm⟩
  -- ties survive the step
  have htie : ∀ (rest : Frame P D I) (m : Int) (xs : List P), Tie first i r m xs →
      Tie first (i + 1) ⟨[b', c', d', rest], r.log ++ [Ev.step (first + (i : Int)) r.buf, Ev.write (first + (i : Int)) b'] ++
        if first + (i : Int) < first + (L : Int) - 2 then [Ev.read (first + (i : Int) + 3)] else []⟩ m xs := by
    intro rest m xs ht
    rcases ht with ⟨f, hf, hx⟩ | ⟨a2, b2, c2, d2, e, ht⟩
    · exact Or.inl ⟨f, by simp only [hwr]; exact List.mem_append_left _ hf, hx⟩
    · rw [hb] at e
      cases e
      rcases ht with ⟨rfl, hx⟩ | ⟨rfl, hx⟩ | ⟨rfl, hx⟩
      · exact Or.inl ⟨b', by simp only [hwr]; simp, by rw [hsame]; exact hx⟩
      · exact Or.inr ⟨b', c', d', rest, rfl, Or.inl ⟨by push_cast; ring, hx.trans hc'⟩⟩
      · exact Or.inr ⟨b', c', d', rest, rfl, Or.inr (Or.inl ⟨by push_cast; ring, hx.trans hd'⟩)⟩
  obtain ⟨w2, w3⟩ := stepFrames_img hst
  obtain ⟨i2, i3⟩ : (i + 1 ≤ max L 2 → WithAdded g (disk (first + i + 1)).img c.img) ∧
      (i + 2 ≤ max L 2 → WithAdded g (disk (first + i + 2)).img d.img) := by
    obtain ⟨a2, b2, c2, d2, e, k1, k2⟩ := hI.imgs
    rw [hb] at e
    cases e
    exact ⟨k1, k2⟩
  constructor
  · refine ⟨_, _, _, _, rfl, ?_, ?_⟩
    · intro hh
      have := (i3 (by omega)).trans w3
      rw [show first + ((i + 1 : ℕ) : Int) + 1 = first + i + 2 by push_cast; ring]
      exact this
    · intro hh
      rw [if_pos (by omega), show first + ((i + 1 : ℕ) : Int) + 2 = first + i + 3 by push_cast; ring]
      exact .same
  · intro _
    refine ⟨b', _, rfl, ?_⟩
    simp only [hwr]
    have : first + ((i + 1 : Nat) : Int) - 1 = first + i := by push_cast; ring
    rw [this]
    simp
  · intro n f hf
    simp only [hwr] at hf ⊢
    rw [List.mem_append, List.mem_singleton] at hf
    rcases hf with hf | hf
    · obtain ⟨hn, hkn⟩ := hI.known n f hf
      refine ⟨by push_cast; omega, hkn.mono (fun x hx => List.mem_append_left _ hx) ?_ (by omega)⟩
      intro m xs _ ht
      exact htie _ m xs ht
    · cases hf
      refine ⟨by push_cast; omega, ?_⟩
      intro j k hl
      obtain ⟨p, p', x0, x3, g1, g2, g3, g4, g5, g6⟩ := hreason j k hl
      have hprev : p'.prev = p.prev := by
        have := congrArg (fun l : List Int => l[j]?) s3
        simp only [List.getElem?_map, g1, g2, Option.map_some] at this
        exact Option.some.inj this
      refine ⟨p', x0, x3, a.xs, c'.xs, d'.xs, if first + (i : Int) + 2 ≤ first + L then (disk (first + i + 2)).img else d.img, g2, ?_, ?_, g5, ?_, ?_, ?_⟩
      · unfold Predecessor at g4 ⊢
        rw [hprev]
        exact g4
      · intro hfn
        obtain ⟨a2, l, e, ha⟩ := hI.prev (by omega)
        rw [hb] at e
        cases e
        exact ⟨a, List.mem_append_left _ ha, rfl⟩
      · exact Or.inr ⟨b', c', d', _, rfl, Or.inl ⟨by push_cast; ring, List.prefix_rfl⟩⟩
      · intro hh
        exact ⟨Or.inr ⟨b', c', d', _, rfl, Or.inr (Or.inl ⟨by push_cast; ring, List.prefix_rfl⟩)⟩, if_pos hh⟩
      · rw [g3]
        refine g6.images (i2 (by omega)) ?_
        split_ifs with hh
        · exact i3 (by omega)
        · exact .same

theorem GInv.steps_all {g : Geo P J C I D} (hg : SearchSane g) {disk : Int → Frame P D I}
    {first : Int} {L : Nat} (hd : ∀ n, ∀ p ∈ (disk n).parts, Unlinked p) (k : Nat) :
    ∀ i r r', i + k = L → KInv disk first L i r → GInv g disk first L i r →
    forwardSteps disk (trackBuf g) (first + L) k (first + i) r = .ok r' → GInv g disk first L L r' := by
  induction k with
  | zero =>
    intro i r r' hi _ hI h
    cases h
    have : i = L := by omega
    subst this; exact hI
  | succ k ih =>
    intro i r r' hi hK hI h
    unfold forwardSteps at h
    obtain ⟨r1, h1, h⟩ := bind_ok h
    refine ih (i + 1) r1 r' (by omega) (KInv.step hg hd (by omega) hK h1) (GInv.step hg (by omega) hK hI h1) ?_
    rw [← h]; congr 1; push_cast; ring

/-- C77 for the frames that a forward run writes: every link from particle `i` of written frame `n` to particle `k` has
a reason, in terms of the positions of the written frames: the predecessor is the one of frame `n - 1`, the target is
particle `k` of frame `n + 1`, and the continuation is in frame `n + 2` (if that is in the sequence; see C78 for the
last step). New positions come from the images of these frames, as they have been read. -/
theorem C77_run (g : Geo P J C I D) (hg : SearchSane g) (disk : Int → Frame P D I)
    (hd : ∀ n, ∀ p ∈ (disk n).parts, p.prev = PREV_NONE ∧ p.next = NEXT_NONE) (first : Int) (L : Nat)
    (a b c d : Frame P D I) (r : Run (Frame P D I))
    (h : forwardRun disk (trackBuf g) first (first + L) [a, b, c, d] = .ok r)
    (n : Int) (f : Frame P D I) (hw : (n, f) ∈ writesOf r.log) (i k : Nat) (hl : PointsTo f.parts i k) :
    ∃ p x0 x3 before fnext after i3, f.parts[i]? = some p ∧ Predecessor before p x0 ∧
      (first < n → ∃ f', (n - 1, f') ∈ writesOf r.log ∧ f'.parts.map Part.x = before) ∧
      (n + 1, fnext) ∈ writesOf r.log ∧ (fnext.parts.map Part.x)[k]? = some x3 ∧
      (n + 2 ≤ first + L → (∃ f', (n + 2, f') ∈ writesOf r.log ∧ after <+: f'.parts.map Part.x) ∧ i3 = (disk (n + 2)).img) ∧
      Reason g x0 p.x x3 (disk (n + 1)).img i3 after p.final := by
  unfold forwardRun at h
  obtain ⟨r1, h1, h⟩ := bind_ok h
  have hL : ((first + (L : Int)) - first).toNat = L := by omega
  rw [hL, forwardStart_eq] at h1
  have h0 : KInv disk first L 0 ⟨[c, disk first, disk (first + 1), disk (first + 2)],
        [.read first, .read (first + 1), .read (first + 2)]⟩ := by
    refine ⟨⟨c, _, _, _, rfl, fun p hp => (hd _ p hp).2, ⟨[], by simp⟩,
      fun _ p hp => (hd _ p hp).1, ?_, ?_, ?_⟩, ?_, ?_, ?_, ?_⟩
    · simp [writesOf]
    · intro _; exact ⟨hd _, [], by simp⟩
    · intro _; exact ⟨hd _, [], by simp⟩
    · simp [writesOf, LinkChain]
    · simp [writesOf]
    · simp [writesOf]
    · simp [writesOf]
  have h0' : GInv g disk first L 0 ⟨[c, disk first, disk (first + 1), disk (first + 2)],
        [.read first, .read (first + 1), .read (first + 2)]⟩ :=
    ⟨⟨_, _, _, _, rfl, fun _ => by simp only [Nat.cast_zero, add_zero]; exact .same,
      fun _ => by simp only [Nat.cast_zero, add_zero]; exact .same⟩, fun h => absurd h (by omega), fun n f hf => by simp [writesOf] at hf⟩
  have h2 := KInv.steps_all hg hd L 0 _ r1 (by omega) h0 (by rw [← h1]; congr 1; simp)
  have h3 := GInv.steps_all hg hd L 0 _ r1 (by omega) h0 h0' (by rw [← h1]; congr 1; simp)
  unfold forwardFinish at h
  split_ifs at h with hz
  obtain ⟨⟨a', b', c', d', hb, ub, -, -, -, -, -⟩, -, -, -, -⟩ := h2
  have e : r = ⟨[b', c', d', a'], r1.log ++ [.write (first + L) b']⟩ := by
    simp [writeFromStart, Run.next, fbNext, pyGet, bind, Except.bind, hb] at h
    rw [← h]
  subst e
  have hwr : writesOf (r1.log ++ [Ev.write (first + (L : Int)) b']) =
      writesOf r1.log ++ [(first + (L : Int), b')] := by simp [writesOf]
  simp only [hwr] at hw ⊢
  rw [List.mem_append, List.mem_singleton] at hw
  rcases hw with hw | hw
  swap
  · cases hw
    obtain ⟨p, hp, e⟩ := hl
    have := ub p (List.mem_of_getElem? hp)
    rw [e] at this
    simp [NEXT_NONE] at this
  obtain ⟨hn, hkn⟩ := h3.known n f hw
  obtain ⟨p, x0, x3, before, next, after, i3, g1, g2, g3, g4, g5, g6, g7⟩ := hkn i k hl
  have htie : ∀ m xs, m ≤ first + L → Tie first L r1 m xs →
      ∃ f', (m, f') ∈ writesOf r1.log ++ [(first + (L : Int), b')] ∧ xs <+: f'.xs := by
    intro m xs hm ht
    rcases ht with ⟨f, hf, hx⟩ | ⟨a2, b2, c2, d2, e, ht⟩
    · exact ⟨f, List.mem_append_left _ hf, hx⟩
    · rw [hb] at e
      cases e
      rcases ht with ⟨rfl, hx⟩ | ⟨rfl, hx⟩ | ⟨rfl, hx⟩
      · exact ⟨b', by simp, hx⟩
      · omega
      · omega
  obtain ⟨fn, m1, m2⟩ := htie _ _ hn g5
  refine ⟨p, x0, x3, before, fn, after, i3, g1, g2, ?_, m1, ?_, fun hh => ⟨htie _ _ hh (g6 hh).1, (g6 hh).2⟩, g7⟩
  · intro hf
    obtain ⟨f', q1, q2⟩ := g3 hf
    exact ⟨f', List.mem_append_left _ q1, q2⟩
  · obtain ⟨e, he⟩ := m2
    have hlt := (List.getElem?_eq_some_iff.1 g4).1
    show fn.xs[k]? = some x3
    rw [← he, List.getElem?_append_left hlt, g4]

end

/-- The example run of C16 meets the hypotheses of C77 and makes links: here the first written frame. -/
example : (match forwardRun demoDisk (trackBuf demoGeo) 10 (10 + (3 : Nat)) demoBuf with
    | .ok r => decide ((writesOf r.log).map (fun w => (w.1, w.2.parts.map Part.next)) =
        [(10, [-2, 0]), (11, [-2, 0]), (12, [0, -2]), (13, [-2, -2])])
    | .error _ => false) = true := by
  decide +kernel

/-! ### C78 -/

section
variable {F : Type}

/-- The state at the beginning of step `first + i` of a forward run over `L` steps: which frames are where. -/
structure StepInv (no : F → Int) (first : Int) (L i : Nat) (r : Run F) : Prop where
  buf : ∃ a b c d, r.buf = [a, b, c, d] ∧ (0 < i → no a = first + i - 1) ∧ no b = first + i ∧
    (i + 1 ≤ max L 2 → no c = first + i + 1) ∧ (i + 2 ≤ max L 2 → no d = first + i + 2) ∧
    (i + 1 = L → 3 ≤ L → no d = first + i - 2)
  steps : (stepsOf r.log).map Prod.fst = intRange first i
  stepBufs : ∀ n b, (n, b) ∈ stepsOf r.log → ∃ x y z w, b = [x, y, z, w] ∧ (first < n → no x = n - 1) ∧
    no y = n ∧ no z = n + 1 ∧ (n + 2 ≤ first + L → no w = n + 2) ∧ (n + 1 = first + L → 3 ≤ L → no w = n - 2)

theorem StepInv.step {no : F → Int} {disk : Int → F} {process : List F → Py (List F)} {first : Int}
    {L i : Nat} {r r' : Run F} (hd : ∀ n, no (disk n) = n)
    (hp : ∀ b b', process b = .ok b' → b'.map no = b.map no) (hi : i < L) (hI : StepInv no first L i r)
    (h : forwardStep disk process (first + L) (first + i) r = .ok r') : StepInv no first L (i + 1) r' := by
  obtain ⟨⟨a, b, c, d, hb, na, nb, nc, nd, nl⟩, hs, hsb⟩ := hI
  have hpl : ∀ b b', process b = .ok b' → b'.length = b.length := by
    intro b b' hbb
    have := congrArg List.length (hp b b' hbb)
    simpa using this
  obtain ⟨a', b', c', d', h1, rfl⟩ := forwardStep_ok h hpl (by rw [hb]; rfl)
  have hno := hp _ _ h1
  rw [hb] at hno
  simp only [List.map_cons, List.map_nil, List.cons.injEq, and_true] at hno
  obtain ⟨n0, n1, n2, n3⟩ := hno
  have hcond : (first + (i : Int) < first + (L : Int) - 2) ↔ i + 2 < L := by omega
  have hno : stepsOf (if first + (i : Int) < first + (L : Int) - 2 then
      [Ev.read (F := F) (first + i + 3)] else []) = [] := by split_ifs <;> rfl
  refine ⟨⟨b', c', d', _, rfl, ?_, by rw [n2, nc (by omega)]; push_cast; ring, ?_, ?_, ?_⟩, ?_, ?_⟩
  · intro _
    rw [n1, nb]; push_cast; ring
  · intro hh
    rw [n3, nd (by omega)]; push_cast; ring
  · intro hh
    rw [if_pos (hcond.2 (by omega)), hd]; push_cast; ring
  · intro hh h3
    rw [if_neg (fun x => by have := hcond.1 x; omega), n0, na (by omega)]
    push_cast; omega
  · simp only [stepsOf_append, List.map_append, hs, intRange_succ]
    rw [hno]
    simp [stepsOf]
  · intro n bb hm
    simp only [stepsOf_append, List.mem_append] at hm
    rw [hno] at hm
    rcases hm with (hm | hm) | hm
    · exact hsb n bb hm
    · simp only [stepsOf, List.mem_singleton, Prod.mk.injEq] at hm
      obtain ⟨rfl, rfl⟩ := hm
      exact ⟨a, b, c, d, hb, fun hh => na (by omega), nb, nc (by omega), fun hh => nd (by omega),
        fun hh h3 => nl (by omega) h3⟩
    · simp at hm

theorem StepInv.steps_all {no : F → Int} {disk : Int → F} {process : List F → Py (List F)} {first : Int}
    {L : Nat} (hd : ∀ n, no (disk n) = n)
    (hp : ∀ b b', process b = .ok b' → b'.map no = b.map no) (k : Nat) :
    ∀ i r r', i + k = L → StepInv no first L i r →
    forwardSteps disk process (first + L) k (first + i) r = .ok r' → StepInv no first L L r' := by
  induction k with
  | zero =>
    intro i r r' hi hI h
    cases h
    have : i = L := by omega
    subst this; exact hI
  | succ k ih =>
    intro i r r' hi hI h
    unfold forwardSteps at h
    obtain ⟨r1, h1, h⟩ := bind_ok h
    refine ih (i + 1) r1 r' (by omega) (StepInv.step hd hp (by omega) hI h1) ?_
    rw [← h]; congr 1; push_cast; ring

theorem forwardRun_steps {no : F → Int} {disk : Int → F} {process : List F → Py (List F)}
    {first : Int} {L : Nat} {a b c d : F} {r : Run F} (hd : ∀ n, no (disk n) = n)
    (hp : ∀ b b', process b = .ok b' → b'.map no = b.map no)
    (h : forwardRun disk process first (first + L) [a, b, c, d] = .ok r) :
    (stepsOf r.log).map Prod.fst = intRange first L ∧
    ∀ n b, (n, b) ∈ stepsOf r.log → ∃ x y z w, b = [x, y, z, w] ∧ (first < n → no x = n - 1) ∧
      no y = n ∧ no z = n + 1 ∧ (n + 2 ≤ first + L → no w = n + 2) ∧
      (n + 1 = first + L → 3 ≤ L → no w = n - 2) := by
  unfold forwardRun at h
  obtain ⟨r1, h1, h⟩ := bind_ok h
  have hL : ((first + (L : Int)) - first).toNat = L := by omega
  rw [hL, forwardStart_eq] at h1
  have h0 : StepInv no first L 0 ⟨[c, disk first, disk (first + 1), disk (first + 2)],
        [.read first, .read (first + 1), .read (first + 2)]⟩ := by
    refine ⟨⟨c, _, _, _, rfl, fun h => absurd h (by omega), ?_, ?_, ?_, fun _ _ => by omega⟩, ?_, ?_⟩
    · rw [hd]; simp
    · intro _; rw [hd]; simp
    · intro _; rw [hd]; simp
    · simp [stepsOf, intRange]
    · simp [stepsOf]
  have h2 := StepInv.steps_all hd hp L 0 _ r1 (by omega) h0 (by rw [← h1]; congr 1; simp)
  unfold forwardFinish at h
  split_ifs at h with hz
  obtain ⟨⟨a', b', c', d', hb, -⟩, hs, hsb⟩ := h2
  have e : r = ⟨[b', c', d', a'], r1.log ++ [.write (first + L) b']⟩ := by
    simp [writeFromStart, Run.next, fbNext, pyGet, bind, Except.bind, hb] at h
    rw [← h]
  subst e
  have hst : stepsOf (r1.log ++ [Ev.write (first + (L : Int)) b']) = stepsOf r1.log := by
    simp [stepsOf]
  rw [hst]
  exact ⟨hs, hsb⟩

end

section
variable {P J C I D : Type} [Field D] [LinearOrder D]

/-- C78 (partial): every step `n` of a forward run except the last one works with the frames `n - 1` (if there is
one), `n`, `n + 1` and `n + 2`, in this order. Missing: the last step, see `C78_last_step_refuted`. -/
theorem C78_four_frames_partial (g : Geo P J C I D) (hg : SearchSane g) (disk : Int → Frame P D I)
    (hd : ∀ n, (disk n).no = n) (first : Int) (L : Nat) (a b c d : Frame P D I) (r : Run (Frame P D I))
    (h : forwardRun disk (trackBuf g) first (first + L) [a, b, c, d] = .ok r)
    (n : Int) (h1 : first ≤ n) (h2 : n + 2 ≤ first + L) :
    ∃ x y z w, (n, [x, y, z, w]) ∈ stepsOf r.log ∧ (first < n → x.no = n - 1) ∧ y.no = n ∧ z.no = n + 1 ∧
      w.no = n + 2 := by
  obtain ⟨hs, hsb⟩ := forwardRun_steps (no := Frame.no) hd (trackBuf_no hg) h
  have : n ∈ (stepsOf r.log).map Prod.fst := by
    rw [hs]
    simp only [intRange, List.mem_map, List.mem_range]
    exact ⟨(n - first).toNat, by omega, by omega⟩
  rw [List.mem_map] at this
  obtain ⟨⟨m, bf⟩, hm, rfl⟩ := this
  obtain ⟨x, y, z, w, rfl, p1, p2, p3, p4, -⟩ := hsb m bf hm
  exact ⟨x, y, z, w, hm, p1, p2, p3, p4 h2⟩

/-- C78 is false in every run of at least three steps: the last step, from `n = last - 1` to `last`, looks for
continuations in frame `n - 2`, the frame before the previous one, which is still in the last place of the buffer
because nothing is read after `last`. -/
theorem C78_last_step_refuted (g : Geo P J C I D) (hg : SearchSane g) (disk : Int → Frame P D I)
    (hd : ∀ n, (disk n).no = n) (first : Int) (L : Nat) (hL : 3 ≤ L) (a b c d : Frame P D I)
    (r : Run (Frame P D I)) (h : forwardRun disk (trackBuf g) first (first + L) [a, b, c, d] = .ok r) :
    ∃ n x y z w, n + 1 = first + (L : Int) ∧ (n, [x, y, z, w]) ∈ stepsOf r.log ∧ y.no = n ∧ z.no = n + 1 ∧
      w.no = n - 2 := by
  obtain ⟨hs, hsb⟩ := forwardRun_steps (no := Frame.no) hd (trackBuf_no hg) h
  have : first + L - 1 ∈ (stepsOf r.log).map Prod.fst := by
    rw [hs]
    simp only [intRange, List.mem_map, List.mem_range]
    exact ⟨L - 1, by omega, by omega⟩
  rw [List.mem_map] at this
  obtain ⟨⟨m, bf⟩, hm, e⟩ := this
  simp only at e
  obtain ⟨x, y, z, w, rfl, p1, p2, p3, p4, p5⟩ := hsb m bf hm
  exact ⟨m, x, y, z, w, by omega, hm, p2, p3, p5 (by omega) hL⟩

end

/-! A run in which this decides about a link. -/

/-- Particles on a line; the image data of a frame are the positions of its particles; the search finds the
particles within 5/4. -/
def lineGeo : Geo ℚ Unit Unit (List ℚ) ℚ where
  predict a b := 2 * b - a
  predict2 x3 x1 x0 := (5 * x3 - 4 * x1 + x0) / 2
  sub a b := a - b
  dist a b := |a - b|
  proj _ := ()
  projOwn _ _ _ := ()
  search x _ i := .ok (((List.range i.length).filter fun k => decide (|i.getD k 0 - x| ≤ 5 / 4)).map
    (fun (k : ℕ) => (⟨(k : ℤ), 2⟩ : Found)) ++ [⟨-1, 0⟩])
  assess _ _ := .ok (0, (), ())
  pointPos _ := .ok 0
  inVolume _ := true
  inBounds x := decide (|x| < 2)
  angleAcc _ b c := .ok (0, |b - c|)
  addImg i _ _ := .ok i
  dacc := 5
  dangle := 100
  lmax := 1
  add := false

def lineFrame (n : Int) (xs : List ℚ) : Frame ℚ ℚ (List ℚ) := ⟨n, xs.map (fun x => ⟨x, PREV_NONE, NEXT_NONE, [], 0⟩), xs⟩

/-- Frame 11 is empty, so is everything except a particle going from 0 to 1 at the end of the sequence and `early` in
frame 10. -/
def lineDisk (early : List ℚ) (n : Int) : Frame ℚ ℚ (List ℚ) :=
  lineFrame n (if n = 10 then early else if n = 12 then [0] else if n = 13 then [1] else [])

/-- The forward links written by the run over frames 10 to 13. -/
def lineLinks (early : List ℚ) : Option (List (Int × List Int)) :=
  match forwardRun (lineDisk early) (trackBuf lineGeo) 10 13 (List.replicate 4 ⟨0, [], []⟩) with
  | .ok r => some ((writesOf r.log).map (fun w => (w.1, w.2.parts.map Part.next)))
  | .error _ => none

/-- C78 is false, observably: the same particles in frames 12 and 13 (and nothing in frame 11) are linked if frame 10
has a particle where the frame after 13 would need one, and not otherwise. -/
theorem C78_link_from_the_past_refuted :
    lineLinks [2] = some [(10, [-2]), (11, []), (12, [0]), (13, [-2])] ∧
    lineLinks [] = some [(10, []), (11, []), (12, [-2]), (13, [-2])] := by
  decide +kernel

example : ∀ e n, (lineDisk e n).no = n := fun _ _ => rfl

example : SearchSane lineGeo := by
  intro x v i w h f hf
  cases h
  simp only [List.mem_append, List.mem_map, List.mem_singleton] at hf
  rcases hf with ⟨k, -, rfl⟩ | rfl
  · show (-1 : ℤ) ≤ (k : ℤ)
    omega
  · decide

/-! ### C79 -/

section
variable {P J C I D : Type} [Field D] [LinearOrder D]

/-- C79 (partial): for every link `x1 -> x3` in the frames that a forward run writes, some displacement is within
the velocity limits: that of the link itself (a path extended without continuation), that of the continuing step
`x4 - x3` (for a new position `x4`: its negative), or, for a new `x3`, the difference to the expected position. Missing:
the displacement of the link itself in the other cases, see `C79_refuted`. -/
theorem C79_limits_partial (g : Geo P J C I D) (hg : SearchSane g) (disk : Int → Frame P D I)
    (hd : ∀ n, ∀ p ∈ (disk n).parts, p.prev = PREV_NONE ∧ p.next = NEXT_NONE) (first : Int) (L : Nat)
    (a b c d : Frame P D I) (r : Run (Frame P D I))
    (h : forwardRun disk (trackBuf g) first (first + L) [a, b, c, d] = .ok r)
    (n : Int) (f : Frame P D I) (hw : (n, f) ∈ writesOf r.log) (i k : Nat) (hl : PointsTo f.parts i k) :
    ∃ (p q : Part P D) (fnext : Frame P D I) (x0 : Option P), f.parts[i]? = some p ∧
      (n + 1, fnext) ∈ writesOf r.log ∧ fnext.parts[k]? = some q ∧
      (g.inBounds (g.sub q.x p.x) = true ∨ (∃ x4, g.inBounds (g.sub x4 q.x) = true) ∨
      (∃ i3 x4, (n + 2 ≤ first + L → i3 = (disk (n + 2)).img) ∧ Triangulated g i3 (expectedAfter g x0 p.x q.x) x4 ∧
        g.inBounds (g.sub q.x x4) = true) ∨
      (Triangulated g (disk (n + 1)).img (expected g x0 p.x) q.x ∧ g.inBounds (g.sub (expected g x0 p.x) q.x) = true)) := by
  obtain ⟨p, x0, x3, before, fnext, after, i3, h1, -, -, h4, h5, h6, h7⟩ :=
    C77_run g hg disk hd first L a b c d r h n f hw i k hl
  rw [List.getElem?_map, Option.map_eq_some_iff] at h5
  obtain ⟨q, hq, rfl⟩ := h5
  refine ⟨p, q, fnext, x0, h1, h4, hq, ?_⟩
  cases h7 with
  | continued x4 _ _ _ _ h4 hv => exact Or.inr (Or.inl ⟨x4, hv⟩)
  | continuedNew x4 _ _ h4 _ hv => exact Or.inr (Or.inr (Or.inl ⟨i3, x4, fun hh => (h6 hh).2, h4, hv⟩))
  | plain _ _ _ _ hv => exact Or.inl hv
  | added _ _ _ _ _ h3 hv => exact Or.inr (Or.inr (Or.inr ⟨h3, hv⟩))

end

/-- Particles in a plane, seen along the second axis: the search only uses the first coordinate. Velocities are limited
to 2 in both directions. -/
def planeGeo : Geo (ℚ × ℚ) Unit Unit (List ℚ) ℚ where
  predict a b := (2 * b.1 - a.1, 2 * b.2 - a.2)
  predict2 x3 x1 x0 := ((5 * x3.1 - 4 * x1.1 + x0.1) / 2, (5 * x3.2 - 4 * x1.2 + x0.2) / 2)
  sub a b := (a.1 - b.1, a.2 - b.2)
  dist a b := |a.1 - b.1| + |a.2 - b.2|
  proj _ := ()
  projOwn _ _ _ := ()
  search x _ i := .ok (((List.range i.length).filter fun k => decide (|i.getD k 0 - x.1| ≤ 2)).map
    (fun (k : ℕ) => (⟨(k : ℤ), 2⟩ : Found)) ++ [⟨-1, 0⟩])
  assess _ _ := .ok (0, (), ())
  pointPos _ := .ok (0, 0)
  inVolume _ := true
  inBounds x := decide (|x.1| < 2 ∧ |x.2| < 2)
  angleAcc _ b c := .ok (0, |b.1 - c.1| + |b.2 - c.2|)
  addImg i _ _ := .ok i
  dacc := 20
  dangle := 100
  lmax := 1
  add := false

def planeDisk (n : Int) : Frame (ℚ × ℚ) ℚ (List ℚ) :=
  let xs : List (ℚ × ℚ) := if n = 10 then [(0, 0)] else if n = 11 then [(0, 10)] else if n = 12 then [(0, 11)] else []
  ⟨n, xs.map (fun x => ⟨x, PREV_NONE, NEXT_NONE, [], 0⟩), xs.map Prod.fst⟩

/-- C79 is false: a particle without a predecessor is linked over a displacement five times the limit, because only
the step from the candidate to its continuation is tested. -/
theorem C79_refuted :
    (match forwardRun planeDisk (trackBuf planeGeo) 10 13 (List.replicate 4 ⟨0, [], []⟩) with
      | .ok r => some ((writesOf r.log).map (fun w => (w.1, w.2.parts.map (fun p => (p.x, p.next)))))
      | .error _ => none) =
    some [(10, [((0, 0), 0)]), (11, [((0, 10), 0)]), (12, [((0, 11), -2)]), (13, [])] ∧
    planeGeo.inBounds (planeGeo.sub (0, 10) (0, 0)) = false := by
  decide +kernel

/-- As `lineGeo`, with velocities between 0 and 2 (a flow to the right only), and a search for new particles that
always finds one at `new`. -/
def signGeo (new : ℚ) : Geo ℚ Unit Unit (List ℚ) ℚ :=
  { lineGeo with inBounds := fun x => decide (0 < x ∧ x < 2), assess := fun _ _ => .ok (2, (), ()), pointPos := fun _ => .ok new }

/-- C79 is false the other way, too: with velocities limited to 0 .. 2, a particle at 0, its candidate at 1 and a new
position 2 in the frame after next make no link (the difference is taken the wrong way round), but the new position 0,
against the flow, makes one. -/
theorem C79_sign_refuted :
    (match stepFrames (signGeo 2) (lineFrame 9 []) (lineFrame 10 [0]) (lineFrame 11 [1]) (lineFrame 12 []) with
      | .ok s => some (s.1.parts.map Part.next)
      | .error _ => none) = some [-2] ∧
    (match stepFrames (signGeo 0) (lineFrame 9 []) (lineFrame 10 [0]) (lineFrame 11 [1]) (lineFrame 12 []) with
      | .ok s => some (s.1.parts.map Part.next)
      | .error _ => none) = some [0] ∧
    (signGeo 2).inBounds ((signGeo 2).sub 2 1) = true ∧ (signGeo 0).inBounds ((signGeo 0).sub 0 1) = false := by
  decide +kernel

end Verif.Track
