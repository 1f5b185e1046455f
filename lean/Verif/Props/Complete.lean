/-
C93, C94: a forward step misses no link; when it adds particles.
-/
import Verif.Props.Gates

set_option linter.unusedSectionVars false

namespace Verif.Track
open Verif.Track.Spec

section
variable {P J C I D : Type} [Field D] [LinearOrder D]

/-! ### Specification -/

/-- The part of a search list that counts: up to the end mark or the first number without a particle. -/
def offered (w : List Found) (n : Nat) : List Found := w.takeWhile fun f => decide (f.ftnr ≠ -1 ∧ f.ftnr < n)

/-- A particle `q` of the frame after next (`after`), offered by the search around the expected position, continues the
path from `x1` over `x3` acceptably, with decision value `d`. `freq` is the number of images that support `x3`. A list with
a single entry (the end mark) offers nothing. -/
def ContinuedAt (g : Geo P J C I D) (x0 : Option P) (x1 x3 : P) (freq : Nat) (after : Frame P D I) (d : D) : Prop :=
  ∃ wn, g.search (expectedAfter g x0 x1 x3) (g.proj (expectedAfter g x0 x1 x3)) after.img = .ok wn ∧ 1 < wn.length ∧
    ∃ fn ∈ offered wn after.parts.length, ∃ q, after.parts[fn.ftnr.toNat]? = some q ∧ g.inBounds (g.sub q.x x3) = true ∧
      ∃ angle0 acc0 angle1 acc1, g.angleAcc x3 q.x (expectedAfter g x0 x1 x3) = .ok (angle1, acc1) ∧
        (if x0.isSome then g.angleAcc x1 (expected g x0 x1) x3 = .ok (angle0, acc0) else (angle0, acc0) = (angle1, acc1)) ∧
        Smooth g ((angle0 + angle1) / 2) ((acc0 + acc1) / 2) ∧
        d = ((g.dist x1 x3 + g.dist q.x x3) / 2 / g.lmax + (acc0 + acc1) / 2 / g.dacc + (angle0 + angle1) / 2 / g.dangle) /
          ((fn.freq + freq : ℕ) : D)

/-- Unmatched targets of the frame after next give a position that continues the path acceptably. -/
def ContinuedNewAt (g : Geo P J C I D) (x0 : Option P) (x1 x3 : P) (freq : Nat) (after : Frame P D I) (d : D) : Prop :=
  ∃ q v c x4 angle acc, g.assess (expectedAfter g x0 x1 x3) after.img = .ok (q, v, c) ∧ 2 ≤ q ∧ g.pointPos v = .ok x4 ∧
    g.inVolume x4 = true ∧ g.inBounds (g.sub x3 x4) = true ∧
    g.angleAcc x3 x4 (expectedAfter g x0 x1 x3) = .ok (angle, acc) ∧ Smooth g angle acc ∧
    d = ((g.dist x1 x3 + g.dist x4 x3) / 2 / g.lmax + acc / g.dacc + angle / g.dangle) / ((q + freq : ℕ) : D)

/-- The step to `x3` is acceptable for a particle with a predecessor. -/
def PlainAt (g : Geo P J C I D) (x0 : Option P) (x1 x3 : P) : Prop :=
  x0.isSome = true ∧ g.inBounds (g.sub x3 x1) = true ∧
    ∃ angle acc, g.angleAcc x1 (expected g x0 x1) x3 = .ok (angle, acc) ∧ Smooth g angle acc

/-- Unmatched targets in the images `img` of the next frame, near the expected position, give a position that is an
acceptable continuation of a path with a predecessor. -/
def AddableAt (g : Geo P J C I D) (x0 : Option P) (x1 : P) (img : I) : Prop :=
  x0.isSome = true ∧ ∃ q v c x3 angle acc, g.assess (expected g x0 x1) img = .ok (q, v, c) ∧ 2 ≤ q ∧
    g.pointPos v = .ok x3 ∧ g.inVolume x3 = true ∧ g.inBounds (g.sub (expected g x0 x1) x3) = true ∧
    g.angleAcc x1 (expected g x0 x1) x3 = .ok (angle, acc) ∧ Smooth g angle acc

/-- The particle `i` at `x1` has found something at least as good as `d`: it has a link with decision value `d' ≤ d`, or the
particle `k` it wants, with value `d' ≤ d`, has gone to another particle whose value is at least as good. `i2`, `i3` are the images
of the next frame and the one after. -/
def Served (g : Geo P J C I D) (x0 : Option P) (x1 : P) (i2 i3 : I) (cur next after : List (Part P D)) (i : Nat) (d : D) : Prop :=
  ∃ (k : Nat) (d' : D) (x3 : P), d' ≤ d ∧ (next.map Part.x)[k]? = some x3 ∧ Reason g x0 x1 x3 i2 i3 (after.map Part.x) d' ∧
    ((∃ p, cur[i]? = some p ∧ p.next = k ∧ p.final = d') ∨
      (PointsTo cur i NEXT_NONE ∧ ∃ j p, j ≠ i ∧ cur[j]? = some p ∧ p.next = k ∧ p.final ≤ d'))

/-- The next frame `next` and the one after, `after`, as they are when the turn of particle `i` comes: the search has dealt with the
particles before `i`, and may have added particles to them. With adding off they are `b2` and `b3`. -/
structure AtTurn (g : Geo P J C I D) (b0 b1 b2 b3 : Frame P D I) (i : Nat) (next after : Frame P D I) : Prop where
  run : ∃ b1c, searchLoop g b0 (List.range i) b1 b2 b3 = .ok (b1c, next, after)
  next_more : Extends b2 next
  after_more : Extends b3 after
  same : g.add = false → next = b2 ∧ after = b3

/-- The frame after next, `seen`, as it is when the search for a particle at `p` that came from `x0` looks at the candidate `f` of the
list `w`: it has dealt with the candidates before, starting with the frame `after`, to which it may have added. -/
structure AtCandidate (g : Geo P J C I D) (x0 : Option P) (p : Part P D) (next : Frame P D I) (w : List Found) (f : Found)
    (after seen : Frame P D I) : Prop where
  run : ∃ pre post cur, w = pre ++ f :: post ∧
    candLoop g x0 p.x (expected g x0 p.x) next (pre ++ [⟨TR_UNUSED, 0⟩]) { p with cands := [] } after = .ok (cur, seen)
  more : Extends after seen
  same : g.add = false → seen = after

/-! ### Proof -/

theorem More.mem {Q : Int → Prop} {a b : Part P D} (h : More Q a b) {x : D × Int} (hx : x ∈ a.cands) : x ∈ b.cands := by
  obtain ⟨l, rfl, -⟩ := h
  exact List.mem_append_left _ hx

theorem register_mem {cur cur' : Part P D} {r : D} {k : Int} (h : cur.register r k = .ok cur') : (r, k) ∈ cur'.cands := by
  unfold Part.register at h
  split_ifs at h
  cases h
  simp

theorem offered_nil {f : Found} {rest : List Found} {n : Nat} (h : f.ftnr = TR_UNUSED ∨ (n : Int) ≤ f.ftnr) :
    offered (f :: rest) n = [] := by
  unfold offered
  rw [List.takeWhile_cons_of_neg]
  simp only [TR_UNUSED] at h
  simp; omega

theorem offered_cons {f : Found} {rest : List Found} {n : Nat} (h : ¬ (f.ftnr = TR_UNUSED ∨ (n : Int) ≤ f.ftnr)) :
    offered (f :: rest) n = f :: offered rest n := by
  unfold offered
  rw [List.takeWhile_cons_of_pos]
  simp only [TR_UNUSED] at h
  simp; omega

theorem lookAhead_all {g : Geo P J C I D} {x0 : Option P} {x1 x3 : P} {f : Found} {b3 : Frame P D I} {d : D}
    {fn : Found} {q : Part P D} {a0 c0 a1 c1 : D} (hv : g.inBounds (g.sub q.x x3) = true)
    (h1 : g.angleAcc x3 q.x (expectedAfter g x0 x1 x3) = .ok (a1, c1))
    (h0 : if x0.isSome then g.angleAcc x1 (expected g x0 x1) x3 = .ok (a0, c0) else (a0, c0) = (a1, c1))
    (hs : Smooth g ((a0 + a1) / 2) ((c0 + c1) / 2))
    (hd : d = ((g.dist x1 x3 + g.dist q.x x3) / 2 / g.lmax + (c0 + c1) / 2 / g.dacc + (a0 + a1) / 2 / g.dangle) /
      ((fn.freq + f.freq : ℕ) : D)) :
    ∀ (w : List Found) (cur cur' : Part P D), (∀ f ∈ w, -1 ≤ f.ftnr) → fn ∈ offered w b3.parts.length →
    b3.parts[fn.ftnr.toNat]? = some q →
    lookAhead g (mkCtx g x0 x1 x3 f) b3 w cur = .ok cur' → (d, f.ftnr) ∈ cur'.cands := by
  intro w
  induction w with
  | nil => intro cur cur' _ h; simp [offered] at h
  | cons e rest ih =>
    intro cur cur' hw hf hq h
    have hw' : ∀ f ∈ rest, -1 ≤ f.ftnr := fun f hf => hw f (by simp [hf])
    unfold lookAhead at h
    by_cases hh : e.ftnr = TR_UNUSED ∨ (b3.parts.length : Int) ≤ e.ftnr
    · rw [offered_nil hh] at hf
      simp at hf
    rw [offered_cons hh, List.mem_cons] at hf
    rw [if_neg hh] at h
    obtain ⟨q', hq', h⟩ := bind_ok h
    rcases hf with rfl | hf
    · have h0' : 0 ≤ fn.ftnr := by
        have := hw fn (by simp)
        simp only [TR_UNUSED] at hh
        omega
      have hq' := pyGetI_nonneg h0' hq'
      rw [hq] at hq'
      cases hq'
      rw [if_pos (by exact hv)] at h
      obtain ⟨z1, hz1, h⟩ := bind_ok h
      have : z1 = (a1, c1) := by
        have e1 : g.angleAcc x3 q.x (expectedAfter g x0 x1 x3) = .ok z1 := hz1
        rw [h1] at e1
        exact (Except.ok.inj e1).symm
      subst this
      simp only at h
      have key : (if g.gate ((c0 + c1) / 2) ((a0 + a1) / 2) = true then do
            let cur' ← cur.register (g.rr ((g.dist x1 x3 + g.dist q.x x3) / 2)
              ((c0 + c1) / 2) ((a0 + a1) / 2) (fn.freq + f.freq)) f.ftnr
            lookAhead g (mkCtx g x0 x1 x3 f) b3 rest cur'
          else lookAhead g (mkCtx g x0 x1 x3 f) b3 rest cur) = .ok cur' → (d, f.ftnr) ∈ cur'.cands := by
        intro h
        rw [if_pos (by simpa [Geo.gate, Smooth] using hs)] at h
        obtain ⟨cur1, h5, h⟩ := bind_ok h
        have := register_mem h5
        rw [hd]
        exact (lookAhead_more (Q := fun _ => True) trivial _ _ _ h).mem this
      by_cases h3 : x0.isSome = true
      · rw [if_pos (by exact h3)] at h
        rw [if_pos h3] at h0
        obtain ⟨z, hz, h⟩ := bind_ok h
        have : z = (a0, c0) := by
          have e1 : g.angleAcc x1 (expected g x0 x1) x3 = .ok z := hz
          rw [h0] at e1
          exact (Except.ok.inj e1).symm
        subst this
        exact key h
      · rw [if_neg (by exact h3)] at h
        rw [if_neg h3] at h0
        cases h0
        exact key h
    · by_cases h2 : g.inBounds (g.sub q'.x x3) = true
      · rw [if_pos (by exact h2)] at h
        obtain ⟨⟨angle1, acc1⟩, ha1, h⟩ := bind_ok h
        simp only at h
        have key : ∀ z : D × D, (if g.gate ((z.2 + acc1) / 2) ((z.1 + angle1) / 2) = true then do
              let cur' ← cur.register (g.rr ((g.dist x1 x3 + g.dist q'.x x3) / 2)
                ((z.2 + acc1) / 2) ((z.1 + angle1) / 2) (e.freq + f.freq)) f.ftnr
              lookAhead g (mkCtx g x0 x1 x3 f) b3 rest cur'
            else lookAhead g (mkCtx g x0 x1 x3 f) b3 rest cur) = .ok cur' → (d, f.ftnr) ∈ cur'.cands := by
          intro z h
          split_ifs at h with h4
          · obtain ⟨cur1, h5, h⟩ := bind_ok h
            exact ih _ _ hw' hf hq h
          · exact ih _ _ hw' hf hq h
        by_cases h3 : x0.isSome = true
        · rw [if_pos (by exact h3)] at h
          obtain ⟨z, hz, h⟩ := bind_ok h
          exact key z h
        · rw [if_neg (by exact h3)] at h
          exact key (angle1, acc1) h
      · rw [if_neg (by exact h2)] at h
        exact ih _ _ hw' hf hq h

theorem tryNew_all {g : Geo P J C I D} {x0 : Option P} {x1 x3 : P} {f : Found} {cur cur' : Part P D}
    {b3 b3' : Frame P D I} {d : D} (h : tryNew g (mkCtx g x0 x1 x3 f) cur b3 = .ok (cur', b3'))
    (hd : ContinuedNewAt g x0 x1 x3 f.freq b3 d) : (d, f.ftnr) ∈ cur'.cands := by
  obtain ⟨q, v, c, x4, angle, acc, a1, a2, a3, a4, a5, a6, a7, a8⟩ := hd
  unfold tryNew at h
  obtain ⟨z, hass, h⟩ := bind_ok h
  have e1 : g.assess (expectedAfter g x0 x1 x3) b3.img = .ok z := hass
  rw [a1] at e1
  cases e1
  simp only [if_pos (show q ≥ 2 from a2)] at h
  obtain ⟨x4', hx4, h⟩ := bind_ok h
  rw [a3] at hx4
  cases hx4
  rw [if_pos (by exact ⟨a4, a5⟩)] at h
  obtain ⟨z, ha, h⟩ := bind_ok h
  have e1 : g.angleAcc x3 x4 (expectedAfter g x0 x1 x3) = .ok z := ha
  rw [a6] at e1
  cases e1
  simp only [if_pos (show g.gate acc angle = true by simpa [Geo.gate, Smooth] using a7)] at h
  obtain ⟨cur1, h5, h⟩ := bind_ok h
  have := register_mem h5
  rw [a8]
  by_cases h4 : g.add = true
  · rw [if_pos h4] at h
    obtain ⟨b, h6, h⟩ := bind_ok h
    cases h
    exact this
  · rw [if_neg h4] at h
    cases h
    exact this

theorem tryPlain_all {g : Geo P J C I D} {x0 : Option P} {x1 x3 : P} {f : Found} {cur cur' : Part P D}
    (h : tryPlain g (mkCtx g x0 x1 x3 f) cur = .ok cur') (hp : PlainAt g x0 x1 x3) : cur'.cands ≠ [] := by
  obtain ⟨a1, a2, angle, acc, a3, a4⟩ := hp
  cases x0 with
  | none => simp at a1
  | some y0 =>
    unfold mkCtx tryPlain at h
    simp only at h
    by_cases h1 : cur.cands = []
    swap
    · rw [if_neg h1] at h; cases h; exact h1
    rw [if_pos h1, if_pos a2] at h
    obtain ⟨z, ha, h⟩ := bind_ok h
    rw [a3] at ha
    cases ha
    simp only [if_pos (show g.gate acc angle = true by simpa [Geo.gate, Smooth] using a4)] at h
    have := register_mem h
    intro e
    rw [e] at this
    simp at this

theorem tryNew_noadd {g : Geo P J C I D} (hadd : g.add = false) {ctx : Ctx P} {cur : Part P D} {b3 : Frame P D I}
    {s : Part P D × Frame P D I} (h : tryNew g ctx cur b3 = .ok s) : s.2 = b3 := by
  unfold tryNew at h
  obtain ⟨⟨quali, v2, philf⟩, -, h⟩ := bind_ok h
  by_cases h1 : quali ≥ 2
  swap
  · simp only [if_neg h1] at h; cases h; rfl
  simp only [if_pos h1] at h
  obtain ⟨x4, hx4, h⟩ := bind_ok h
  by_cases h2 : g.inVolume x4 = true ∧ g.inBounds (g.sub ctx.x3 x4) = true
  swap
  · rw [if_neg (by exact h2)] at h; cases h; rfl
  rw [if_pos (by exact h2)] at h
  obtain ⟨⟨angle, acc⟩, ha, h⟩ := bind_ok h
  by_cases h3 : g.gate acc angle = true
  swap
  · simp only [if_neg h3] at h; cases h; rfl
  simp only [if_pos h3] at h
  obtain ⟨cur1, h5, h⟩ := bind_ok h
  rw [if_neg (by simp [hadd])] at h
  cases h
  rfl

theorem candOne_all {g : Geo P J C I D} (hg : SearchSane g) {x0 : Option P} {x1 : P} {f : Found} {r : Part P D}
    {cur : Part P D} {b3 : Frame P D I} {s : Part P D × Frame P D I}
    (h : candOne g x0 x1 (expected g x0 x1) f r cur b3 = .ok s) :
    (∀ d, ContinuedAt g x0 x1 r.x f.freq b3 d ∨ ContinuedNewAt g x0 x1 r.x f.freq b3 d → (d, f.ftnr) ∈ s.1.cands) ∧
    (PlainAt g x0 x1 r.x → s.1.cands ≠ []) ∧ (g.add = false → s.2 = b3) := by
  have hmk : (⟨x0, x1, expected g x0 x1, r.x, g.ahead x0 x1 r.x, f⟩ : Ctx P) = mkCtx g x0 x1 r.x f := by
    unfold mkCtx
    cases x0 <;> rfl
  have hah : g.ahead x0 x1 r.x = expectedAfter g x0 x1 r.x := by cases x0 <;> rfl
  unfold candOne at h
  simp only [hah] at h
  obtain ⟨wn, hwn, h⟩ := bind_ok h
  have key : ∀ cur1, (∀ d, ContinuedAt g x0 x1 r.x f.freq b3 d → (d, f.ftnr) ∈ cur1.cands) →
      (do
        let s ← tryNew g (mkCtx g x0 x1 r.x f) cur1 b3
        let cur3 ← tryPlain g (mkCtx g x0 x1 r.x f) s.1
        .ok (cur3, s.2)) = .ok s →
      (∀ d, ContinuedAt g x0 x1 r.x f.freq b3 d ∨ ContinuedNewAt g x0 x1 r.x f.freq b3 d → (d, f.ftnr) ∈ s.1.cands) ∧
      (PlainAt g x0 x1 r.x → s.1.cands ≠ []) ∧ (g.add = false → s.2 = b3) := by
    intro cur1 hm h
    obtain ⟨⟨cur2, b3''⟩, h2, h⟩ := bind_ok h
    obtain ⟨cur3, h3, h⟩ := bind_ok h
    have hs2 : b3'' = s.2 := by cases h; rfl
    have hnoadd : g.add = false → s.2 = b3 := fun ha => hs2 ▸ tryNew_noadd ha h2
    cases h
    have m2 := (tryNew_more (Q := fun _ => True) trivial h2).1
    have m3 := tryPlain_more (Q := fun _ => True) trivial h3
    refine ⟨?_, tryPlain_all h3, hnoadd⟩
    rintro d (hd | hd)
    · exact m3.mem (m2.mem (hm d hd))
    · exact m3.mem (tryNew_all h2 hd)
  by_cases h2 : wn.length > 1
  · rw [if_pos h2] at h
    obtain ⟨cur1, h3, h⟩ := bind_ok h
    refine key cur1 ?_ h
    rintro d ⟨wn', w1, -, fn, w3, q, w4, w5, a0, c0, a1, c1, w6, w7, w8, w9⟩
    rw [hwn] at w1
    cases w1
    exact lookAhead_all w5 w6 w7 w8 w9 _ _ _ (hg _ _ _ _ hwn) w3 w4 h3
  · rw [if_neg h2] at h
    refine key cur ?_ h
    rintro d ⟨wn', w1, w2, -⟩
    rw [hwn] at w1
    cases w1
    omega

/-- What the search for one particle finds, for a candidate `f` and the frame after next as it is then. -/
def FoundAll (g : Geo P J C I D) (x0 : Option P) (x1 : P) (b2 : Frame P D I) (w : List Found) (cur : Part P D) (f : Found)
    (r : Part P D) (cands : List (D × Int)) (b3 : Frame P D I) : Prop :=
  ∃ b3c, (∃ pre post cur', w = pre ++ f :: post ∧
      candLoop g x0 x1 (expected g x0 x1) b2 (pre ++ [⟨TR_UNUSED, 0⟩]) cur b3 = .ok (cur', b3c)) ∧
    Extends b3 b3c ∧ (g.add = false → b3c = b3) ∧
    (∀ d, ContinuedAt g x0 x1 r.x f.freq b3c d ∨ ContinuedNewAt g x0 x1 r.x f.freq b3c d → (d, f.ftnr) ∈ cands) ∧
    (PlainAt g x0 x1 r.x → cands ≠ [])

theorem candLoop_all {g : Geo P J C I D} (hg : SearchSane g) {x0 : Option P} {x1 : P} {b2 : Frame P D I} :
    ∀ (w : List Found) (cur : Part P D) (b3 : Frame P D I) (s : Part P D × Frame P D I),
    (∀ f ∈ w, -1 ≤ f.ftnr) →
    candLoop g x0 x1 (expected g x0 x1) b2 w cur b3 = .ok s → (g.add = false → s.2 = b3) ∧
    ∀ f ∈ offered w b2.parts.length, ∀ r, b2.parts[f.ftnr.toNat]? = some r →
      FoundAll g x0 x1 b2 w cur f r s.1.cands b3 := by
  intro w
  induction w with
  | nil => intro cur b3 s _ h; simp [candLoop] at h
  | cons e rest ih =>
    intro cur b3 s hw h
    have hw' : ∀ f ∈ rest, -1 ≤ f.ftnr := fun f hf => hw f (by simp [hf])
    unfold candLoop at h
    by_cases h1 : e.ftnr = TR_UNUSED ∨ (b2.parts.length : Int) ≤ e.ftnr
    · rw [if_pos h1] at h; cases h
      refine ⟨fun _ => rfl, ?_⟩
      rw [offered_nil h1]
      simp
    rw [if_neg h1] at h
    obtain ⟨r', hr', h⟩ := bind_ok h
    obtain ⟨s', h2, h⟩ := bind_ok h
    have h0 : 0 ≤ e.ftnr := by
      have := hw e (by simp)
      simp only [TR_UNUSED] at h1
      omega
    have hrp := hr'
    have hr' := pyGetI_nonneg h0 hr'
    obtain ⟨a1, a2, a3⟩ := candOne_all hg h2
    obtain ⟨b1, b2'⟩ := ih _ _ _ hw' h
    have hm := (candLoop_more _ _ _ _ hw' h).1
    have hext := (candOne_more (Q := fun _ => True) trivial h2).2
    refine ⟨fun ha => (b1 ha).trans (a3 ha), ?_⟩
    rw [offered_cons h1]
    intro f hf r hr
    rw [List.mem_cons] at hf
    rcases hf with rfl | hf
    · rw [hr] at hr'
      cases hr'
      refine ⟨b3, ⟨[], rest, cur, rfl, by simp [candLoop]⟩, Extends.refl _, fun _ => rfl, fun d hd => hm.mem (a1 d hd),
        fun hp => ?_⟩
      have := a2 hp
      obtain ⟨x, hx⟩ := List.exists_mem_of_ne_nil _ this
      exact List.ne_nil_of_mem (hm.mem hx)
    · obtain ⟨b3c, ⟨pre, post, cur', e1, e2⟩, c1, c2, c3⟩ := b2' f hf r hr
      refine ⟨b3c, ⟨e :: pre, post, cur', by rw [e1]; rfl, ?_⟩, hext.trans c1, fun ha => (c2 ha).trans (a3 ha), c3⟩
      rw [List.cons_append]
      unfold candLoop
      rw [if_neg h1, hrp]
      simp only [bind, Except.bind]
      rw [h2]
      exact e2

theorem tryAdd_noadd {g : Geo P J C I D} (hadd : g.add = false) {x0 : Option P} {x1 x2 : P} {cur : Part P D}
    {b2 : Frame P D I} {s : Part P D × Frame P D I} (h : tryAdd g x0 x1 x2 cur b2 = .ok s) : s = (cur, b2) := by
  unfold tryAdd at h
  cases x0 with
  | none => cases h; rfl
  | some x0 =>
    simp only at h
    rw [if_neg (by simp [hadd])] at h
    cases h; rfl

theorem tryAdd_all {g : Geo P J C I D} (hadd : g.add = true) {x0 : Option P} {x1 : P} {cur : Part P D}
    {b2 : Frame P D I} {s : Part P D × Frame P D I} (h : tryAdd g x0 x1 (expected g x0 x1) cur b2 = .ok s)
    (ha : AddableAt g x0 x1 b2.img) : s.1.cands ≠ [] := by
  obtain ⟨hx, q, v, c, x3, angle, acc, h1, h2, h3, h4, h5, h6, h7⟩ := ha
  unfold tryAdd at h
  cases x0 with
  | none => cases hx
  | some x0 =>
    simp only at h
    by_cases hc : cur.cands = []
    · rw [if_pos ⟨hadd, hc⟩, h1] at h
      obtain ⟨s1, e, h⟩ := bind_ok h
      cases e
      simp only at h
      rw [if_pos h2, h3] at h
      obtain ⟨s2, e, h⟩ := bind_ok h
      cases e
      rw [if_pos ⟨h4, h5⟩, h6] at h
      obtain ⟨s3, e, h⟩ := bind_ok h
      cases e
      simp only at h
      rw [if_pos (by simpa [Geo.gate, Smooth] using h7)] at h
      obtain ⟨cur1, e1, h⟩ := bind_ok h
      obtain ⟨b2', e2, h⟩ := bind_ok h
      cases h
      exact List.ne_nil_of_mem (register_mem e1)
    · rw [if_neg (by tauto)] at h
      cases h
      exact hc

theorem searchOne_all {g : Geo P J C I D} (hg : SearchSane g) {b0 b1 b2 b3 b2' b3' : Frame P D I}
    {h : Nat} {cur p : Part P D} {x0 : Option P} (hp : b1.parts[h]? = some p) (hx : prevPos b0 p = .ok x0)
    (hs : searchOne g b0 b1 h b2 b3 = .ok (cur, b2', b3')) :
    (g.add = false → b2' = b2 ∧ b3' = b3) ∧
    ∀ w, g.search (expected g x0 p.x) (g.centreProj x0 b1 h (expected g x0 p.x)) b2.img = .ok w → w.length ≠ 1 →
      (∀ f ∈ offered w b2.parts.length, ∀ r, b2.parts[f.ftnr.toNat]? = some r →
        FoundAll g x0 p.x b2 w { p with cands := [] } f r cur.cands b3) ∧
      (g.add = true → AddableAt g x0 p.x b2.img → cur.cands ≠ []) := by
  unfold searchOne at hs
  rw [pyGet_some hp] at hs
  obtain ⟨p', e, hs⟩ := bind_ok hs
  cases e
  rw [hx] at hs
  obtain ⟨x0', e, hs⟩ := bind_ok hs
  cases e
  have hc : g.centre x0 p.x = expected g x0 p.x := by cases x0 <;> rfl
  simp only [hc] at hs
  obtain ⟨w, hw, hs⟩ := bind_ok hs
  by_cases h1 : w.length = 1
  · rw [if_pos h1] at hs
    cases hs
    refine ⟨fun _ => ⟨rfl, rfl⟩, ?_⟩
    intro w' hw' hl
    rw [hw] at hw'
    cases hw'
    exact absurd h1 hl
  · rw [if_neg h1] at hs
    obtain ⟨⟨cur1, b3a⟩, h2, hs⟩ := bind_ok hs
    obtain ⟨⟨cur2, b2a⟩, h3, hs⟩ := bind_ok hs
    cases hs
    obtain ⟨a1, a2⟩ := candLoop_all hg _ _ _ _ (hg _ _ _ _ hw) h2
    have m := (tryAdd_more h3).1
    refine ⟨fun ha => ⟨?_, a1 ha⟩, ?_⟩
    · have := tryAdd_noadd ha h3
      cases this
      rfl
    · intro w' hw' hl
      rw [hw] at hw'
      cases hw'
      refine ⟨?_, fun ha had => tryAdd_all ha h3 had⟩
      intro f hf r hr
      obtain ⟨b3c, c0, c1, c2, c3, c4⟩ := a2 f hf r hr
      refine ⟨b3c, c0, c1, c2, fun d hd => m.mem (c3 d hd), fun hp => ?_⟩
      obtain ⟨x, hx⟩ := List.exists_mem_of_ne_nil _ (c4 hp)
      exact List.ne_nil_of_mem (m.mem hx)

/-- The search for particle `h`, with the frames as they are then. -/
theorem searchLoop_at {g : Geo P J C I D} (hg : SearchSane g) {b0 : Frame P D I} (k : Nat) :
    ∀ (m : Nat) (b1 b2 b3 b1' b2' b3' : Frame P D I), m + k = b1.parts.length →
    searchLoop g b0 (List.range' m k) b1 b2 b3 = .ok (b1', b2', b3') →
    (g.add = false → b2' = b2 ∧ b3' = b3) ∧
    ∀ h p, b1.parts[h]? = some p → m ≤ h → ∃ b1c b2c b3c b2d b3d cur,
      searchLoop g b0 (List.range' m (h - m)) b1 b2 b3 = .ok (b1c, b2c, b3c) ∧ b1c.parts[h]? = some p ∧ b1c.img = b1.img ∧
      Extends b2 b2c ∧ Extends b3 b3c ∧ (g.add = false → b2c = b2 ∧ b3c = b3) ∧
      searchOne g b0 b1c h b2c b3c = .ok (cur, b2d, b3d) ∧ b1'.parts[h]? = some cur := by
  induction k with
  | zero =>
    intro m b1 b2 b3 b1' b2' b3' hm hs
    simp only [List.range'_zero, searchLoop] at hs
    cases hs
    refine ⟨fun _ => ⟨rfl, rfl⟩, ?_⟩
    intro h p hp hh
    have := (List.getElem?_eq_some_iff.1 hp).1
    omega
  | succ k ih =>
    intro m b1 b2 b3 b1' b2' b3' hm hs
    rw [List.range'_succ] at hs
    simp only [searchLoop] at hs
    obtain ⟨⟨cur, b2a, b3a⟩, h1, hs⟩ := bind_ok hs
    simp only at hs
    have hmlt : m < b1.parts.length := by omega
    obtain ⟨q, hq⟩ : ∃ q, b1.parts[m]? = some q := ⟨_, List.getElem?_eq_getElem hmlt⟩
    have hx : ∃ x0, prevPos b0 q = .ok x0 := by
      have h1 := h1
      unfold searchOne at h1
      rw [pyGet_some hq] at h1
      obtain ⟨p', e, h1⟩ := bind_ok h1
      cases e
      obtain ⟨x0, hx, -⟩ := bind_ok h1
      exact ⟨x0, hx⟩
    obtain ⟨x0, hx⟩ := hx
    have hna := (searchOne_all hg hq hx h1).1
    obtain ⟨s1, s2, -⟩ := searchOne_spec hg h1
    obtain ⟨i1, i2⟩ := ih (m + 1) _ _ _ _ _ _ (by simp; omega) hs
    obtain ⟨f2, f3, f4, f5, f6⟩ := searchLoop_spec hg k (m + 1) _ _ _ _ _ _ (by simp; omega) hs
    refine ⟨fun ha => ⟨(i1 ha).1.trans (hna ha).1, (i1 ha).2.trans (hna ha).2⟩, ?_⟩
    intro h p hp hmh
    by_cases hhm : m = h
    · subst hhm
      exact ⟨b1, b2, b3, b2a, b3a, cur, by simp [searchLoop], hp, rfl, Extends.refl _, Extends.refl _, fun _ => ⟨rfl, rfl⟩, h1,
        (f6 m cur (by simp [hmlt])).1 (by omega)⟩
    · have hp' : ({ b1 with parts := b1.parts.set m cur } : Frame P D I).parts[h]? = some p := by
        simp only; rw [List.getElem?_set_ne hhm]; exact hp
      obtain ⟨b1c, b2c, b3c, b2d, b3d, c, j0, j1, j2, j3, j4, j5, j6, j7⟩ := i2 h p hp' (by omega)
      have j0' : searchLoop g b0 (List.range' m (h - m)) b1 b2 b3 = .ok (b1c, b2c, b3c) := by
        rw [show h - m = (h - (m + 1)) + 1 by omega, List.range'_succ]
        simp only [searchLoop, h1, bind, Except.bind]
        exact j0
      exact ⟨b1c, b2c, b3c, b2d, b3d, c, j0', j1, j2, s1.trans j3, s2.trans j4,
        fun ha => ⟨(j5 ha).1.trans (hna ha).1, (j5 ha).2.trans (hna ha).2⟩, j6, j7⟩

theorem forward_complete_aux (g : Geo P J C I D) (hg : SearchSane g)
    (b0 b1 b2 b3 b1' b2' b3' : Frame P D I) (cnt : Nat)
    (hs : stepFrames g b0 b1 b2 b3 = .ok (b1', b2', b3', cnt))
    (hn : ∀ p ∈ b1.parts, p.next = NEXT_NONE) (hp : ∀ q ∈ b2.parts, q.prev = PREV_NONE)
    (i : Nat) (p : Part P D) (x0 : Option P) (hpi : b1.parts[i]? = some p)
    (hx0 : Predecessor (b0.parts.map Part.x) p x0) :
    ∃ b2c b3a, AtTurn g b0 b1 b2 b3 i b2c b3a ∧
      ∀ w, g.search (expected g x0 p.x) (g.centreProj x0 b1 i (expected g x0 p.x)) b2c.img = .ok w → w.length ≠ 1 →
      (∀ f ∈ offered w b2c.parts.length, ∀ r, b2c.parts[f.ftnr.toNat]? = some r →
        ∃ b3c, AtCandidate g x0 p b2c w f b3a b3c ∧
          (∀ d, ContinuedAt g x0 p.x r.x f.freq b3c d ∨ ContinuedNewAt g x0 p.x r.x f.freq b3c d →
            Served g x0 p.x b2.img b3.img b1'.parts b2'.parts b3'.parts i d) ∧
          (PlainAt g x0 p.x r.x → ∃ d, Served g x0 p.x b2.img b3.img b1'.parts b2'.parts b3'.parts i d)) ∧
      (g.add = true → AddableAt g x0 p.x b2c.img → ∃ d, Served g x0 p.x b2.img b3.img b1'.parts b2'.parts b3'.parts i d) := by
  unfold stepFrames at hs
  obtain ⟨⟨c1, c2, c3⟩, h1, hs⟩ := bind_ok hs
  obtain ⟨⟨c, n, t⟩, h2, hs⟩ := bind_ok hs
  cases hs
  rw [List.range_eq_range'] at h1
  obtain ⟨e2, e3, -, elen, e6⟩ := searchLoop_spec hg _ 0 _ _ _ _ _ _ (by simp) h1
  have e7 := searchLoop_reason hg _ 0 _ _ _ _ _ _ (by simp) h1
  obtain ⟨b1c, b2c, b3c, b2d, b3d, cur, j0, j1, j2, j3, j4, j5, j6, j7⟩ :=
    (searchLoop_at hg _ 0 _ _ _ _ _ _ (by simp) h1).2 i p hpi (by omega)
  rw [Nat.sub_zero, ← List.range_eq_range'] at j0
  have hc2 : ∀ q ∈ c2.parts, q.prev = PREV_NONE := by
    obtain ⟨-, e, e1, e2⟩ := e2
    intro q hq
    rw [e1, List.mem_append] at hq
    rcases hq with h | h
    · exact hp q h
    · exact (e2 q h).1.1
  have old : ∀ (j : Nat) (q : Part P D), c1.parts[j]? = some q → ∃ (p : Part P D) (cs : List (D × Int)),
      b1.parts[j]? = some p ∧ q = { p with cands := cs } ∧ ∀ x ∈ cs, 0 ≤ x.2 ∧ x.2 < c2.parts.length := by
    intro j q hq
    have hlt := (List.getElem?_eq_some_iff.1 hq).1
    obtain ⟨p, hp⟩ : ∃ p, b1.parts[j]? = some p := ⟨_, List.getElem?_eq_getElem (by omega)⟩
    obtain ⟨cs, a1, -, a3⟩ := (e6 j p hp).2 (by omega)
    rw [hq] at a1
    exact ⟨p, cs, hp, Option.some.inj a1, a3⟩
  have hk : ∀ p ∈ c1.parts, ∀ x ∈ p.cands, 0 ≤ x.2 ∧ x.2 < c2.parts.length := by
    intro q hq x hx
    obtain ⟨j, hj⟩ := List.getElem?_of_mem hq
    obtain ⟨p, cs, -, rfl, a3⟩ := old j q hj
    exact a3 x hx
  have hnx : ∀ q ∈ c1.parts, q.next = NEXT_NONE := by
    intro q hq
    obtain ⟨j, hj⟩ := List.getElem?_of_mem hq
    obtain ⟨p, cs, hp, rfl, -⟩ := old j q hj
    exact hn p (List.mem_of_getElem? hp)
  obtain ⟨c', n', t', g1, g2, g3, g4, -, -, -⟩ := linkPhase_spec hc2 hk
  rw [h2] at g1
  cases g1
  have hbw := C17_best_wins c1.parts c2.parts c n _ hc2 hnx hk h2
  have hxs : n.map Part.x = c2.parts.map Part.x := (linkPhase_mutual hc2 (fun p hp _ => hnx p hp) hk h2).2.2.1
  -- the position before
  obtain ⟨x0', cur', hx, hcur', hprom⟩ := e7 i p hpi (by omega)
  rw [j7] at hcur'
  cases hcur'
  have hx' : x0' = x0 := by
    have := prevPos_spec hx
    unfold Predecessor at this hx0
    split_ifs at this hx0
    · rw [this, hx0]
    · rw [← this.2, ← hx0.2]; rfl
  subst hx'
  -- a registered candidate is served
  have final : ∀ (j : Nat) (q : Part P D) (d : D) (k : Int), c1.parts[j]? = some q → BestOf q d k → ∀ pj, c[j]? = some pj →
      pj.final = d := by
    intro j q d k hq hb pj hpj
    obtain ⟨nx, a1, -, -⟩ := g4 j q hq
    rw [hpj] at a1
    have a1 := Option.some.inj a1
    rcases prelim_spec q with ⟨b1, -⟩ | ⟨d', k', b1, b2, b3, -⟩
    · have := hb.1
      rw [b1] at this
      simp at this
    · rw [a1, b3]
      simp only
      have u1 := b2 _ hb.1
      have u2 := hb.2 _ b1
      simp only at u1 u2
      rcases u1 with u1 | u1
      · rcases u2 with u2 | u2
        · exact absurd u1 (not_lt_of_gt u2)
        · exact u2.1.symm
      · exact u1.1
  have served : cur.cands ≠ [] → ∃ (k : Nat) (d' : D) (x3 : P), (∀ x ∈ cur.cands, d' ≤ x.1) ∧
      (n.map Part.x)[k]? = some x3 ∧ Reason g x0' p.x x3 b2.img b3.img (b3'.parts.map Part.x) d' ∧
      ((∃ p, c[i]? = some p ∧ p.next = k ∧ p.final = d') ∨
        (PointsTo c i NEXT_NONE ∧ ∃ j p, j ≠ i ∧ c[j]? = some p ∧ p.next = k ∧ p.final ≤ d')) := by
    intro hne
    rcases prelim_spec cur with ⟨b1, -⟩ | ⟨d, kI, b1, b2, -, -⟩
    · exact absurd b1 hne
    obtain ⟨k, x3, hk1, hk2, hk3⟩ := hprom _ b1
    simp only at hk1 hk3
    subst hk1
    have hbest : BestAt c1.parts i d k := ⟨cur, j7, b1, b2⟩
    refine ⟨k, d, x3, ?_, by rw [hxs]; exact hk2, hk3, ?_⟩
    · intro x hx
      rcases b2 x hx with h | h
      · exact le_of_lt h
      · exact le_of_eq h.1
    · by_cases hpt : PointsTo c i k
      · obtain ⟨q, hq1, hq2⟩ := hpt
        exact Or.inl ⟨q, hq1, hq2, final i cur d k j7 ⟨b1, b2⟩ q hq1⟩
      · obtain ⟨u1, j, e, u2, ⟨qj, u3, u4⟩, ⟨pj, u5, u6⟩, u7⟩ := hbw.2 i d k hbest hpt
        exact Or.inr ⟨u1, j, pj, u2, u5, u6, by rw [final j qj e k u3 u4 pj u5]; exact u7⟩
  have all := (searchOne_all hg j1 hx j6).2
  have himg : ∀ x2, g.centreProj x0' b1c i x2 = g.centreProj x0' b1 i x2 := by
    intro x2
    cases x0' <;> simp [Geo.centreProj, j2]
  refine ⟨b2c, b3c, ⟨⟨b1c, j0⟩, j3, j4, j5⟩, ?_⟩
  intro w hw hl
  rw [← himg] at hw
  refine ⟨?_, fun ha had => ?_⟩
  swap
  · obtain ⟨k, d', x3, s1, s2, s3, s4⟩ := served ((all w hw hl).2 ha had)
    exact ⟨d', k, d', x3, le_refl _, s2, s3, s4⟩
  intro f hf r hr
  obtain ⟨b3e, k0, k1, k2, k3, k4⟩ := (all w hw hl).1 f hf r hr
  refine ⟨b3e, ⟨k0, k1, k2⟩, ?_, ?_⟩
  · intro d hd
    have hmem := k3 d hd
    obtain ⟨k, d', x3, s1, s2, s3, s4⟩ := served (List.ne_nil_of_mem hmem)
    exact ⟨k, d', x3, s1 _ hmem, s2, s3, s4⟩
  · intro hpl
    obtain ⟨k, d', x3, s1, s2, s3, s4⟩ := served (k4 hpl)
    exact ⟨d', k, d', x3, le_refl _, s2, s3, s4⟩

/-- C93: a forward step misses no link. Take particle `i` of the current frame and a particle of the next frame that the
search offers to it. If a particle of the frame after next (offered by the search there), or a position triangulated from
unmatched targets, continues the path acceptably with decision value `d`, then particle `i` gets a link with value at
most `d`, or the particle it wants goes to another one with a value at least as good. If only the step itself is
acceptable, for a particle with a predecessor, particle `i` gets a link or loses in this way as well. The frames
`b2c`, `b3c` are the next ones as they are when the search looks at them (`AtTurn`, `AtCandidate`): with particles that the step
has added; just `b2`, `b3` if adding is off. -/
theorem C93_forward_complete (g : Geo P J C I D) (hg : SearchSane g)
    (b0 b1 b2 b3 b1' b2' b3' : Frame P D I) (cnt : Nat)
    (hs : stepFrames g b0 b1 b2 b3 = .ok (b1', b2', b3', cnt))
    (hn : ∀ p ∈ b1.parts, p.next = NEXT_NONE) (hp : ∀ q ∈ b2.parts, q.prev = PREV_NONE)
    (i : Nat) (p : Part P D) (x0 : Option P) (hpi : b1.parts[i]? = some p)
    (hx0 : Predecessor (b0.parts.map Part.x) p x0) :
    ∃ b2c b3a, AtTurn g b0 b1 b2 b3 i b2c b3a ∧
      ∀ w, g.search (expected g x0 p.x) (g.centreProj x0 b1 i (expected g x0 p.x)) b2c.img = .ok w → w.length ≠ 1 →
      ∀ f ∈ offered w b2c.parts.length, ∀ r, b2c.parts[f.ftnr.toNat]? = some r →
        ∃ b3c, AtCandidate g x0 p b2c w f b3a b3c ∧
          (∀ d, ContinuedAt g x0 p.x r.x f.freq b3c d ∨ ContinuedNewAt g x0 p.x r.x f.freq b3c d →
            Served g x0 p.x b2.img b3.img b1'.parts b2'.parts b3'.parts i d) ∧
          (PlainAt g x0 p.x r.x → ∃ d, Served g x0 p.x b2.img b3.img b1'.parts b2'.parts b3'.parts i d) := by
  obtain ⟨b2c, b3a, a1, a3⟩ := forward_complete_aux g hg b0 b1 b2 b3 b1' b2' b3' cnt hs hn hp i p x0 hpi hx0
  exact ⟨b2c, b3a, a1, fun w hw hl => (a3 w hw hl).1⟩

/-- C94, the case that works: with adding on, take a particle with a predecessor for which the search list of the next
frame (`b2c`, the next frame at that moment) is not just the end mark. If unmatched targets near the expected position give an
acceptable position, the particle is served: linked (possibly to the particle added there), or beaten by a better one. -/
theorem C94_lost_added_partial (g : Geo P J C I D) (hg : SearchSane g)
    (b0 b1 b2 b3 b1' b2' b3' : Frame P D I) (cnt : Nat)
    (hs : stepFrames g b0 b1 b2 b3 = .ok (b1', b2', b3', cnt))
    (hn : ∀ p ∈ b1.parts, p.next = NEXT_NONE) (hp : ∀ q ∈ b2.parts, q.prev = PREV_NONE)
    (i : Nat) (p : Part P D) (x0 : Option P) (hpi : b1.parts[i]? = some p)
    (hx0 : Predecessor (b0.parts.map Part.x) p x0) (ha : g.add = true) :
    ∃ b2c b3a, AtTurn g b0 b1 b2 b3 i b2c b3a ∧
      ∀ w, g.search (expected g x0 p.x) (g.centreProj x0 b1 i (expected g x0 p.x)) b2c.img = .ok w → w.length ≠ 1 →
        AddableAt g x0 p.x b2c.img → ∃ d, Served g x0 p.x b2.img b3.img b1'.parts b2'.parts b3'.parts i d := by
  obtain ⟨b2c, b3a, a1, a3⟩ := forward_complete_aux g hg b0 b1 b2 b3 b1' b2' b3' cnt hs hn hp i p x0 hpi hx0
  exact ⟨b2c, b3a, a1, fun w hw hl => (a3 w hw hl).2 ha⟩

/-- C94, the case that fails, for every step: if the search list of the next frame is just the end mark, the particle gets
no link, whatever the unmatched targets show. -/
theorem C94_nothing_near_skipped_partial (g : Geo P J C I D) (hg : SearchSane g)
    (b0 b1 b2 b3 b1' b2' b3' : Frame P D I) (cnt : Nat)
    (hs : stepFrames g b0 b1 b2 b3 = .ok (b1', b2', b3', cnt))
    (hn : ∀ p ∈ b1.parts, p.next = NEXT_NONE) (hp : ∀ q ∈ b2.parts, q.prev = PREV_NONE)
    (i : Nat) (p : Part P D) (x0 : Option P) (hpi : b1.parts[i]? = some p)
    (hx0 : Predecessor (b0.parts.map Part.x) p x0) :
    ∃ b2c b3a, AtTurn g b0 b1 b2 b3 i b2c b3a ∧
      ∀ w, g.search (expected g x0 p.x) (g.centreProj x0 b1 i (expected g x0 p.x)) b2c.img = .ok w → w.length = 1 →
        PointsTo b1'.parts i NEXT_NONE := by
  unfold stepFrames at hs
  obtain ⟨⟨c1, c2, c3⟩, h1, hs⟩ := bind_ok hs
  obtain ⟨⟨c, n, t⟩, h2, hs⟩ := bind_ok hs
  cases hs
  rw [List.range_eq_range'] at h1
  obtain ⟨e2, e3, -, elen, e6⟩ := searchLoop_spec hg _ 0 _ _ _ _ _ _ (by simp) h1
  have e7 := searchLoop_reason hg _ 0 _ _ _ _ _ _ (by simp) h1
  obtain ⟨b1c, b2c, b3c, b2d, b3d, cur, j0, j1, j2, j3, j4, j5, j6, j7⟩ :=
    (searchLoop_at hg _ 0 _ _ _ _ _ _ (by simp) h1).2 i p hpi (by omega)
  rw [Nat.sub_zero, ← List.range_eq_range'] at j0
  have hc2 : ∀ q ∈ c2.parts, q.prev = PREV_NONE := by
    obtain ⟨-, e, e1, e2⟩ := e2
    intro q hq
    rw [e1, List.mem_append] at hq
    rcases hq with h | h
    · exact hp q h
    · exact (e2 q h).1.1
  have old : ∀ (j : Nat) (q : Part P D), c1.parts[j]? = some q → ∃ (p : Part P D) (cs : List (D × Int)),
      b1.parts[j]? = some p ∧ q = { p with cands := cs } ∧ ∀ x ∈ cs, 0 ≤ x.2 ∧ x.2 < c2.parts.length := by
    intro j q hq
    have hlt := (List.getElem?_eq_some_iff.1 hq).1
    obtain ⟨p, hp⟩ : ∃ p, b1.parts[j]? = some p := ⟨_, List.getElem?_eq_getElem (by omega)⟩
    obtain ⟨cs, a1, -, a3⟩ := (e6 j p hp).2 (by omega)
    rw [hq] at a1
    exact ⟨p, cs, hp, Option.some.inj a1, a3⟩
  have hk : ∀ p ∈ c1.parts, ∀ x ∈ p.cands, 0 ≤ x.2 ∧ x.2 < c2.parts.length := by
    intro q hq x hx
    obtain ⟨j, hj⟩ := List.getElem?_of_mem hq
    obtain ⟨p, cs, -, rfl, a3⟩ := old j q hj
    exact a3 x hx
  have hnx : ∀ q ∈ c1.parts, q.next = NEXT_NONE := by
    intro q hq
    obtain ⟨j, hj⟩ := List.getElem?_of_mem hq
    obtain ⟨p, cs, hp, rfl, -⟩ := old j q hj
    exact hn p (List.mem_of_getElem? hp)
  obtain ⟨x0', cur', hx, hcur', -⟩ := e7 i p hpi (by omega)
  have hx' : x0' = x0 := by
    have := prevPos_spec hx
    unfold Predecessor at this hx0
    split_ifs at this hx0
    · rw [this, hx0]
    · rw [← this.2, ← hx0.2]; rfl
  subst hx'
  refine ⟨b2c, b3c, ⟨⟨b1c, j0⟩, j3, j4, j5⟩, ?_⟩
  intro w hw hl
  have hcur : cur.cands = [] := by
    have himg : ∀ x2, g.centreProj x0' b1c i x2 = g.centreProj x0' b1 i x2 := by
      intro x2
      cases x0' <;> simp [Geo.centreProj, j2]
    rw [← himg] at hw
    unfold searchOne at j6
    rw [pyGet_some j1] at j6
    obtain ⟨p', e, j6⟩ := bind_ok j6
    cases e
    rw [hx] at j6
    obtain ⟨x0', e, j6⟩ := bind_ok j6
    cases e
    have hc : g.centre x0' p.x = expected g x0' p.x := by cases x0' <;> rfl
    simp only [hc, hw] at j6
    obtain ⟨w', e, j6⟩ := bind_ok j6
    cases e
    rw [if_pos hl] at j6
    cases j6
    rfl
  obtain ⟨c', n', t', g1, g2, g3, g4, -, -, -⟩ := linkPhase_spec hc2 hk
  rw [h2] at g1
  cases g1
  obtain ⟨nx, a1, a2, -⟩ := g4 i cur j7
  exact ⟨_, a1, by rw [a2 hcur]; exact hnx cur (List.mem_of_getElem? j7)⟩

end

/-! ### Examples -/

/-- The particle at 11 came from 10; at 12 there is one particle that goes on to 13, and one at 23/2 that goes on to 12. -/
def goodStep : Option (List (Int × ℚ) × List Int) :=
  match stepFrames demoGeo ⟨10, [⟨10, PREV_NONE, 0, [], 0⟩], ()⟩ ⟨11, [⟨11, 0, NEXT_NONE, [], 0⟩], ()⟩
      ⟨12, [⟨12, PREV_NONE, NEXT_NONE, [], 0⟩, ⟨23 / 2, PREV_NONE, NEXT_NONE, [], 0⟩], ()⟩
      ⟨13, [⟨13, PREV_NONE, NEXT_NONE, [], 0⟩], ()⟩ with
  | .ok (c, n, _, _) => some (c.parts.map (fun p => (p.next, p.final)), n.parts.map Part.prev)
  | .error _ => none

example : goodStep = some ([(0, 1 / 8)], [0, -1]) := by decide +kernel

/-- The hypotheses of C93 for this step: the particle at 12 (supported by 4 images) is offered and continued with value
`1 / 8`, the step to the other one is acceptable too. -/
example : (⟨0, 4⟩ : Found) ∈ offered [⟨0, 4⟩, ⟨1, 3⟩, ⟨-1, 0⟩] 2 ∧ (⟨1, 3⟩ : Found) ∈ offered [⟨0, 4⟩, ⟨1, 3⟩, ⟨-1, 0⟩] 2 ∧
    ContinuedAt demoGeo (some 10) 11 12 4 ⟨13, [⟨13, PREV_NONE, NEXT_NONE, [], 0⟩], ()⟩ (1 / 8) ∧
    PlainAt demoGeo (some 10) 11 (23 / 2) := by
  refine ⟨by decide, by decide, ⟨_, rfl, by decide, ⟨0, 4⟩, by decide, _, rfl, ?_, ?_⟩, rfl, ?_, ?_⟩
  · decide +kernel
  · refine ⟨0, 0, 0, 0, ?_, ?_, ?_, ?_⟩ <;>
      norm_num [demoGeo, expectedAfter, expected, Smooth]
  · decide +kernel
  · refine ⟨0, 1 / 2, ?_, ?_⟩ <;> norm_num [demoGeo, expected, Smooth, abs_of_pos]

/-- A geometry in which unmatched targets of the next frame, seen by four cameras, give the position 12, and adding is on. -/
def lostGeo (w : List Found) : Geo ℚ Unit Unit Unit ℚ :=
  { demoGeo with search := fun _ _ _ => .ok w, assess := fun _ _ => .ok (4, (), ()), pointPos := fun _ => .ok 12, add := true }

/-- The step of the particle at 11 that came from 10; the only particle of the next frame is at 30. -/
def lostStep (w : List Found) : Py (Frame ℚ ℚ Unit × Frame ℚ ℚ Unit × Frame ℚ ℚ Unit × Nat) :=
  stepFrames (lostGeo w) ⟨10, [⟨10, PREV_NONE, 0, [], 0⟩], ()⟩ ⟨11, [⟨11, 0, NEXT_NONE, [], 0⟩], ()⟩
    ⟨12, [⟨30, PREV_NONE, NEXT_NONE, [], 0⟩], ()⟩ ⟨13, [], ()⟩

/-- Forward links of the current frame and positions of the next one after the step. -/
def lostResult (w : List Found) : Option (List Int × List ℚ) :=
  match lostStep w with
  | .ok (c, n, _, _) => some (c.parts.map Part.next, n.parts.map Part.x)
  | .error _ => none

theorem lost_addable (w : List Found) : AddableAt (lostGeo w) (some 10) 11 () := by
  refine ⟨rfl, 4, (), (), 12, 0, 0, rfl, by decide, rfl, rfl, ?_, ?_, ?_⟩ <;>
    norm_num [lostGeo, demoGeo, expected, Smooth]

/-- With a (useless) entry in the search list the particle is found and added. -/
example : lostResult [⟨0, 1⟩, ⟨-1, 0⟩] = some ([1], [30, 12]) := by decide +kernel

/-- C94 fails when nothing is near: unmatched targets seen by four cameras at exactly the expected position, adding on,
and the path ends; no particle is added. -/
theorem C94_lost_added_refuted : ∃ (g : Geo ℚ Unit Unit Unit ℚ) (b0 b1 b2 b3 b1' b2' b3' : Frame ℚ ℚ Unit) (cnt : Nat)
    (p : Part ℚ ℚ) (x0 : Option ℚ), SearchSane g ∧ g.add = true ∧ stepFrames g b0 b1 b2 b3 = .ok (b1', b2', b3', cnt) ∧
    (∀ p ∈ b1.parts, p.next = NEXT_NONE) ∧ (∀ q ∈ b2.parts, q.prev = PREV_NONE) ∧ b1.parts[0]? = some p ∧
    Predecessor (b0.parts.map Part.x) p x0 ∧ AddableAt g x0 p.x b2.img ∧
    PointsTo b1'.parts 0 NEXT_NONE ∧ b2'.parts = b2.parts ∧ ¬ ∃ d, Served g x0 p.x b2.img b3.img b1'.parts b2'.parts b3'.parts 0 d := by
  refine ⟨lostGeo [⟨-1, 0⟩], ⟨10, [⟨10, PREV_NONE, 0, [], 0⟩], ()⟩, ⟨11, [⟨11, 0, NEXT_NONE, [], 0⟩], ()⟩,
    ⟨12, [⟨30, PREV_NONE, NEXT_NONE, [], 0⟩], ()⟩, ⟨13, [], ()⟩, ⟨11, [⟨11, 0, NEXT_NONE, [], 0⟩], ()⟩,
    ⟨12, [⟨30, PREV_NONE, NEXT_NONE, [], 0⟩], ()⟩, ⟨13, [], ()⟩, 0, ⟨11, 0, NEXT_NONE, [], 0⟩, some 10,
    ?_, rfl, by rfl, by simp, by simp, rfl, by simp [Predecessor], lost_addable _, ⟨_, rfl, rfl⟩, rfl, ?_⟩
  · intro x v i w h f hf
    cases h
    simp only [List.mem_cons, List.not_mem_nil, or_false] at hf
    rcases hf with rfl
    decide
  · rintro ⟨d, k, d', x3, -, -, -, h⟩
    rcases h with ⟨p, h1, h2, -⟩ | ⟨-, j, p, h1, h2, h3, -⟩
    · simp at h1
      subst h1
      simp [NEXT_NONE] at h2
    · cases j with
      | zero => exact h1 rfl
      | succ j => simp at h2

end Verif.Track
