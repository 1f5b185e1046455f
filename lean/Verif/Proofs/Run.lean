/-
Helper lemmas: link phase in terms of the specification, the whole step, and the runs.
-/
import Verif.Proofs.TrackStep
import Verif.Spec.Tracking

set_option linter.unusedSectionVars false

namespace Verif.Track
open Verif.Track.Spec

section
variable {P D : Type} [LinearOrder D]

theorem getElem?_prelim (c : List (Part P D)) (h : Nat) :
    (c.map prelim)[h]? = (c[h]?).map prelim := by simp

theorem best_unique {p : Part P D} {d d' : D} {k k' : Int} (a : BestOf p d k)
    (b : BestOf p d' k') : d = d' ∧ k = k' := by
  have h1 := a.2 _ b.1
  have h2 := b.2 _ a.1
  simp only at h1 h2
  rcases h1 with h1 | ⟨h1, h1'⟩ <;> rcases h2 with h2 | ⟨h2, h2'⟩
  · exact absurd (lt_trans h1 h2) (lt_irrefl _)
  · exact absurd h1 (by rw [h2]; exact lt_irrefl _)
  · exact absurd h2 (by rw [h1]; exact lt_irrefl _)
  · exact ⟨h1, le_antisymm h1' h2'⟩

theorem wants_iff (c : List (Part P D)) (h : Nat) (k : Int) (d : D) :
    Wants (c.map prelim) h k d ↔ BestAt c h d k := by
  unfold Wants BestAt
  constructor
  · rintro ⟨p, a, b, e, f⟩
    rw [getElem?_prelim, Option.map_eq_some_iff] at a
    obtain ⟨q, a, rfl⟩ := a
    refine ⟨q, a, ?_⟩
    rcases prelim_spec q with ⟨h1, h2⟩ | ⟨d', k', h1, h2, h3, -⟩
    · rw [h2] at b; exact absurd h1 b
    · rw [h3] at e f
      simp only at e f
      subst e; subst f
      exact ⟨h1, h2⟩
  · rintro ⟨p, a, b⟩
    refine ⟨prelim p, by rw [getElem?_prelim, a]; rfl, ?_⟩
    rcases prelim_spec p with ⟨h1, h2⟩ | ⟨d', k', h1, h2, h3, h4⟩
    · have := b.1; rw [h1] at this; simp at this
    · obtain ⟨rfl, rfl⟩ := best_unique b ⟨h1, h2⟩
      refine ⟨h4, ?_, ?_⟩ <;> rw [h3]

theorem prelim_next {p : Part P D} (hp : p.cands = []) : prelim p = p := by
  rcases prelim_spec p with ⟨-, h⟩ | ⟨d, k, h1, -⟩
  · exact h
  · rw [hp] at h1; simp at h1

theorem prelim_cands {p : Part P D} : (prelim p).cands = [] ↔ p.cands = [] := by
  rcases prelim_spec p with ⟨h, h'⟩ | ⟨d, k, h1, h2, h3, h4⟩
  · rw [h']
  · constructor
    · intro h; exact absurd h h4
    · intro h; rw [h] at h1; simp at h1

theorem prelim_keeps (p : Part P D) : (prelim p).x = p.x ∧ (prelim p).prev = p.prev := by
  rcases prelim_spec p with ⟨h, h'⟩ | ⟨d, k, h1, h2, h3, h4⟩
  · rw [h']; exact ⟨rfl, rfl⟩
  · rw [h3]; exact ⟨rfl, rfl⟩

/-- The linking phase, in the vocabulary of the specification. -/
theorem linkPhase_spec {c n : List (Part P D)} (hn : ∀ q ∈ n, q.prev = PREV_NONE)
    (hk : ∀ p ∈ c, ∀ x ∈ p.cands, 0 ≤ x.2 ∧ x.2 < n.length) :
    ∃ c' n' t, linkPhase c n = .ok (c', n', t) ∧ c'.length = c.length ∧ n'.length = n.length ∧
      (∀ h p, c[h]? = some p → ∃ nx, c'[h]? = some { prelim p with next := nx } ∧
        (p.cands = [] → nx = p.next) ∧
        (∀ d k, BestOf p d k →
          (Wins (c.map prelim) c.length h k ∧ nx = k) ∨
          (¬ Wins (c.map prelim) c.length h k ∧ nx = NEXT_NONE))) ∧
      (∀ (k : Nat) q, n[k]? = some q → ∃ pv, n'[k]? = some { q with prev := pv } ∧
        ((pv = PREV_NONE ∧ ∀ h d, ¬ BestAt c h d k) ∨
          ∃ h : Nat, pv = h ∧ Wins (c.map prelim) c.length h k)) ∧
      numLinks c' ≤ t ∧
      ((∀ k h d h' d', BestAt c h d k → BestAt c h' d' k → h = h') → t = numLinks c') := by
  have hk' : ∀ p ∈ c.map prelim, p.cands ≠ [] → 0 ≤ p.next ∧ p.next < n.length := by
    intro p hp hc
    rw [List.mem_map] at hp
    obtain ⟨q, hq, rfl⟩ := hp
    rcases prelim_spec q with ⟨h1, h2⟩ | ⟨d, k, h1, h2, h3, h4⟩
    · rw [h2] at hc; exact absurd h1 hc
    · rw [h3]; exact hk q hq _ h1
  obtain ⟨c', n', t, h1, h2, h3, h4⟩ := linkLoop_spec hk' c.length 0 (c.map prelim) n 0 (by simp)
    (LInv.start _ _ hn) (by simp [links])
  rw [List.length_map] at h2 h3 h4
  have hcl : c'.length = c.length := by rw [h2.clen]; simp
  have hlinks : links c.length c' = numLinks c' := by
    unfold links numLinks; rw [← hcl, List.take_length]
  refine ⟨c', n', t, ?_, hcl, h2.nlen, ?_, ?_, by rw [← hlinks]; exact h3, ?_⟩
  · unfold linkPhase
    simp only
    rw [List.length_map, List.range_eq_range']
    exact h1
  · intro h p hp
    have hp' : (c.map prelim)[h]? = some (prelim p) := by rw [getElem?_prelim, hp]; rfl
    obtain ⟨nx, a1, -, a3, a4⟩ := h2.cur h _ hp'
    refine ⟨nx, a1, ?_, ?_⟩
    · intro hc
      rw [a3 (prelim_cands.2 hc), prelim_next hc]
    · intro d k hb
      have hlt := (List.getElem?_eq_some_iff.1 hp).1
      rcases prelim_spec p with ⟨x1, -⟩ | ⟨d', k', x1, x2, x3, x4⟩
      · have := hb.1; rw [x1] at this; simp at this
      · obtain ⟨rfl, rfl⟩ := best_unique hb ⟨x1, x2⟩
        have := a4 hlt x4
        rw [x3] at this
        exact this
  · intro k q hq
    obtain ⟨pv, a1, a2⟩ := h2.nxt k q hq
    refine ⟨pv, a1, ?_⟩
    rcases a2 with ⟨b1, b2⟩ | b
    · refine Or.inl ⟨b1, fun h d hb => ?_⟩
      obtain ⟨p, hp, -⟩ := id hb
      exact b2 h d (List.getElem?_eq_some_iff.1 hp).1 ((wants_iff c h k d).2 hb)
    · exact Or.inr b
  · intro hu
    rw [← hlinks]
    refine h4 ?_ (by simp [links])
    intro k h d h' d' hw hlt hw'
    have := hu k h d h' d' ((wants_iff _ _ _ _).1 hw) ((wants_iff _ _ _ _).1 hw')
    omega

theorem wins_iff (c : List (Part P D)) (h : Nat) (k : Int) :
    Wins (c.map prelim) c.length h k ↔
      ∃ d, BestAt c h d k ∧ ∀ h' d', BestAt c h' d' k → d < d' ∨ (d = d' ∧ h ≤ h') := by
  unfold Wins
  constructor
  · rintro ⟨-, d, a, b⟩
    refine ⟨d, (wants_iff _ _ _ _).1 a, fun h' d' hb => ?_⟩
    obtain ⟨p, hp, -⟩ := id hb
    exact b h' d' (List.getElem?_eq_some_iff.1 hp).1 ((wants_iff _ _ _ _).2 hb)
  · rintro ⟨d, a, b⟩
    obtain ⟨p, hp, -⟩ := id a
    refine ⟨(List.getElem?_eq_some_iff.1 hp).1, d, (wants_iff _ _ _ _).2 a, ?_⟩
    intro h' d' _ hw
    exact b h' d' ((wants_iff _ _ _ _).1 hw)

/-- Mutual consistency of the linking phase and what it leaves alone. -/
theorem linkPhase_mutual {c n c' n' : List (Part P D)} {t : Nat}
    (hn : ∀ q ∈ n, q.prev = PREV_NONE) (hc : ∀ p ∈ c, p.cands = [] → p.next = NEXT_NONE)
    (hk : ∀ p ∈ c, ∀ x ∈ p.cands, 0 ≤ x.2 ∧ x.2 < n.length)
    (h : linkPhase c n = .ok (c', n', t)) :
    Mutual c' n' ∧ SamePositions c c' ∧ SamePositions n n' ∧
      c'.map Part.prev = c.map Part.prev ∧ n'.map Part.next = n.map Part.next := by
  obtain ⟨c1, n1, t1, h1, h2, h3, h4, h5, -, -⟩ := linkPhase_spec hn hk
  rw [h] at h1
  cases h1
  have back : ∀ hh p', c'[hh]? = some p' → ∃ p nx, c[hh]? = some p ∧
      p' = { prelim p with next := nx } ∧ (p.cands = [] → nx = p.next) ∧
        (∀ d k, BestOf p d k →
          (Wins (c.map prelim) c.length hh k ∧ nx = k) ∨
          (¬ Wins (c.map prelim) c.length hh k ∧ nx = NEXT_NONE)) := by
    intro hh p' hp'
    have hlt := (List.getElem?_eq_some_iff.1 hp').1
    obtain ⟨p, hp⟩ : ∃ p, c[hh]? = some p := ⟨_, List.getElem?_eq_getElem (by omega)⟩
    obtain ⟨nx, a1, a2, a3⟩ := h4 hh p hp
    rw [hp'] at a1
    exact ⟨p, nx, hp, Option.some.inj a1, a2, a3⟩
  have backn : ∀ (k : Nat) q', n'[k]? = some q' → ∃ q pv, n[k]? = some q ∧
      q' = { q with prev := pv } ∧
        ((pv = PREV_NONE ∧ ∀ h d, ¬ BestAt c h d k) ∨
          ∃ h : Nat, pv = h ∧ Wins (c.map prelim) c.length h k) := by
    intro k q' hq'
    have hlt := (List.getElem?_eq_some_iff.1 hq').1
    obtain ⟨q, hq⟩ : ∃ q, n[k]? = some q := ⟨_, List.getElem?_eq_getElem (by omega)⟩
    obtain ⟨pv, a1, a2⟩ := h5 k q hq
    rw [hq'] at a1
    exact ⟨q, pv, hq, Option.some.inj a1, a2⟩
  have best : ∀ p : Part P D, p.cands = [] ∨ ∃ d k, BestOf p d k := by
    intro p
    rcases prelim_spec p with ⟨x, -⟩ | ⟨d, k, x1, x2, -⟩
    · exact Or.inl x
    · exact Or.inr ⟨d, k, x1, x2⟩
  refine ⟨⟨?_, ?_, ?_⟩, ?_, ?_, ?_, ?_⟩
  · intro hh k
    constructor
    · rintro ⟨p', hp', hnx⟩
      obtain ⟨p, nx, hp, rfl, a2, a3⟩ := back hh p' hp'
      simp only at hnx
      rcases best p with hb | ⟨d, k', hb⟩
      · have := a2 hb
        rw [hc p (List.mem_of_getElem? hp) hb] at this
        simp only [NEXT_NONE] at this
        omega
      · rcases a3 d k' hb with ⟨w, e⟩ | ⟨-, e⟩
        · have hkk : k' = k := by rw [← e, hnx]
          subst hkk
          obtain ⟨x1, x2⟩ := hk p (List.mem_of_getElem? hp) _ hb.1
          simp only at x2
          obtain ⟨q, hq⟩ : ∃ q, n[k]? = some q := ⟨_, List.getElem?_eq_getElem (by omega)⟩
          obtain ⟨pv, b1, b2⟩ := h5 k q hq
          refine ⟨_, b1, ?_⟩
          rcases b2 with ⟨-, b2⟩ | ⟨h', b2, b3⟩
          · exact absurd ⟨p, hp, hb⟩ (b2 hh d)
          · simp only [b2]; rw [b3.unique w]
        · simp only [NEXT_NONE] at e; omega
    · rintro ⟨q', hq', hpv⟩
      obtain ⟨q, pv, hq, rfl, a⟩ := backn k q' hq'
      simp only at hpv
      rcases a with ⟨a, -⟩ | ⟨h', a, w⟩
      · simp only [PREV_NONE] at a; omega
      · have hh' : h' = hh := by omega
        subst hh'
        obtain ⟨d, ⟨p, hp, hb⟩, -⟩ := (wins_iff c h' k).1 w
        obtain ⟨nx, b1, -, b3⟩ := h4 h' p hp
        refine ⟨_, b1, ?_⟩
        rcases b3 d k hb with ⟨-, e⟩ | ⟨e, -⟩
        · exact e
        · exact absurd w e
  · intro p' hp'
    obtain ⟨hh, hp'⟩ := List.mem_iff_getElem?.1 hp'
    obtain ⟨p, nx, hp, rfl, a2, a3⟩ := back hh p' hp'
    rcases best p with hb | ⟨d, k, hb⟩
    · exact Or.inl (by simp only; rw [a2 hb]; exact hc p (List.mem_of_getElem? hp) hb)
    · rcases a3 d k hb with ⟨-, e⟩ | ⟨-, e⟩
      · obtain ⟨x1, x2⟩ := hk p (List.mem_of_getElem? hp) _ hb.1
        simp only at x1 x2
        exact Or.inr ⟨k.toNat, by simp only [e]; omega, by omega⟩
      · exact Or.inl e
  · intro q' hq'
    obtain ⟨k, hq'⟩ := List.mem_iff_getElem?.1 hq'
    obtain ⟨q, pv, hq, rfl, a⟩ := backn k q' hq'
    rcases a with ⟨a, -⟩ | ⟨h', a, w⟩
    · exact Or.inl a
    · exact Or.inr ⟨h', a, by rw [h2]; exact w.1⟩
  · unfold SamePositions
    apply List.ext_getElem?
    intro i
    simp only [List.getElem?_map]
    cases hi : c'[i]? with
    | none =>
      have : c[i]? = none := by rw [List.getElem?_eq_none_iff] at hi ⊢; omega
      rw [this]
    | some p' =>
      obtain ⟨p, nx, hp, rfl, -⟩ := back i p' hi
      rw [hp]; simp [(prelim_keeps p).1]
  · unfold SamePositions
    apply List.ext_getElem?
    intro i
    simp only [List.getElem?_map]
    cases hi : n'[i]? with
    | none =>
      have : n[i]? = none := by rw [List.getElem?_eq_none_iff] at hi ⊢; omega
      rw [this]
    | some p' =>
      obtain ⟨p, nx, hp, rfl, -⟩ := backn i p' hi
      rw [hp]; rfl
  · apply List.ext_getElem?
    intro i
    simp only [List.getElem?_map]
    cases hi : c'[i]? with
    | none =>
      have : c[i]? = none := by rw [List.getElem?_eq_none_iff] at hi ⊢; omega
      rw [this]
    | some p' =>
      obtain ⟨p, nx, hp, rfl, -⟩ := back i p' hi
      rw [hp]; simp [(prelim_keeps p).2]
  · apply List.ext_getElem?
    intro i
    simp only [List.getElem?_map]
    cases hi : n'[i]? with
    | none =>
      have : n[i]? = none := by rw [List.getElem?_eq_none_iff] at hi ⊢; omega
      rw [this]
    | some p' =>
      obtain ⟨p, nx, hp, rfl, -⟩ := backn i p' hi
      rw [hp]; rfl

end
end Verif.Track

namespace Verif.Track
open Verif.Track.Spec

section
variable {P J C I D : Type} [Field D] [LinearOrder D]

theorem stepFrames_spec {g : Geo P J C I D} (hg : SearchSane g) {b0 b1 b2 b3 b1' b2' b3' : Frame P D I}
    {k : Nat} (h1 : ∀ p ∈ b1.parts, p.next = NEXT_NONE) (h2 : ∀ p ∈ b2.parts, Unlinked p)
    (h : stepFrames g b0 b1 b2 b3 = .ok (b1', b2', b3', k)) :
    Mutual b1'.parts b2'.parts ∧ SamePositions b1.parts b1'.parts ∧
      b1'.parts.map Part.prev = b1.parts.map Part.prev ∧
      (∀ p ∈ b2'.parts, p.next = NEXT_NONE) ∧ b1'.no = b1.no ∧ b2'.no = b2.no ∧ Extends b3 b3' ∧
      (∃ e, b2'.parts.map Part.x = b2.parts.map Part.x ++ e) := by
  unfold stepFrames at h
  obtain ⟨⟨a1, a2, a3⟩, hs, h⟩ := bind_ok h
  simp only at h
  obtain ⟨⟨c, n, t⟩, hl, h⟩ := bind_ok h
  cases h
  rw [List.range_eq_range'] at hs
  obtain ⟨e2, e3, e4, e5, e6⟩ := searchLoop_spec hg _ 0 b1 b2 b3 a1 a2 _ (by simp) hs
  have cur : ∀ p' ∈ a1.parts, ∃ p cs, p ∈ b1.parts ∧ p' = { p with cands := cs } ∧
      ∀ x ∈ cs, 0 ≤ x.2 ∧ x.2 < a2.parts.length := by
    intro p' hp'
    obtain ⟨i, hi⟩ := List.mem_iff_getElem?.1 hp'
    have hlt := (List.getElem?_eq_some_iff.1 hi).1
    obtain ⟨p, hp⟩ : ∃ p, b1.parts[i]? = some p := ⟨_, List.getElem?_eq_getElem (by omega)⟩
    obtain ⟨cs, q1, q2, q3⟩ := (e6 i p hp).2 (by omega)
    rw [hi] at q1
    exact ⟨p, cs, List.mem_of_getElem? hp, Option.some.inj q1, q3⟩
  have n2 : ∀ q ∈ a2.parts, Unlinked q := by
    obtain ⟨-, e, q1, q2⟩ := e2
    intro q hq
    rw [q1] at hq
    rcases List.mem_append.1 hq with x | x
    · exact h2 q x
    · exact (q2 q x).1
  obtain ⟨m1, m2, m3, m4, m5⟩ := linkPhase_mutual (fun q hq => (n2 q hq).1)
    (by
      intro p' hp' _
      obtain ⟨p, cs, q1, rfl, -⟩ := cur p' hp'
      exact h1 p q1)
    (by
      intro p' hp'
      obtain ⟨p, cs, q1, rfl, q2⟩ := cur p' hp'
      exact q2) hl
  have ext : ∀ {β : Type} (f : Part P D → β), (∀ p cs, f { p with cands := cs } = f p) →
      a1.parts.map f = b1.parts.map f := by
    intro β f hf
    apply List.ext_getElem?
    intro i
    simp only [List.getElem?_map]
    cases hi : b1.parts[i]? with
    | none =>
      have : a1.parts[i]? = none := by rw [List.getElem?_eq_none_iff] at hi ⊢; omega
      rw [this]
    | some p =>
      obtain ⟨cs, q1, -⟩ := (e6 i p hi).2 (by omega)
      rw [q1]; simp [hf]
  refine ⟨m1, ?_, ?_, ?_, e4, e2.1, e3, ?_⟩
  · unfold SamePositions at m2 ⊢
    rw [m2]; exact ext Part.x (fun _ _ => rfl)
  · simp only; rw [m4]; exact ext Part.prev (fun _ _ => rfl)
  · intro p hp
    have : p.next ∈ n.map Part.next := List.mem_map_of_mem hp
    rw [m5, List.mem_map] at this
    obtain ⟨q, hq, hqe⟩ := this
    rw [← hqe]; exact (n2 q hq).2
  · obtain ⟨-, e, q1, -⟩ := e2
    unfold SamePositions at m3
    refine ⟨e.map Part.x, ?_⟩
    simp only
    rw [m3, q1, List.map_append]

theorem trackBuf_spec {g : Geo P J C I D} {buf buf' : List (Frame P D I)}
    (h : trackBuf g buf = .ok buf') :
    ∃ b0 b1 b2 b3 b1' b2' b3' k, buf = [b0, b1, b2, b3] ∧ buf' = [b0, b1', b2', b3'] ∧
      stepFrames g b0 b1 b2 b3 = .ok (b1', b2', b3', k) := by
  unfold trackBuf at h
  split at h
  · obtain ⟨⟨b1', b2', b3', k⟩, h1, h⟩ := bind_ok h
    cases h
    exact ⟨_, _, _, _, _, _, _, _, rfl, rfl, h1⟩
  · cases h

theorem stepFrames_no {g : Geo P J C I D} (hg : SearchSane g) {b0 b1 b2 b3 b1' b2' b3' : Frame P D I}
    {k : Nat} (h : stepFrames g b0 b1 b2 b3 = .ok (b1', b2', b3', k)) :
    b1'.no = b1.no ∧ b2'.no = b2.no ∧ b3'.no = b3.no := by
  unfold stepFrames at h
  obtain ⟨⟨a1, a2, a3⟩, hs, h⟩ := bind_ok h
  simp only at h
  obtain ⟨⟨c, n, t⟩, hl, h⟩ := bind_ok h
  cases h
  rw [List.range_eq_range'] at hs
  obtain ⟨e2, e3, e4, -, -⟩ := searchLoop_spec hg _ 0 b1 b2 b3 a1 a2 _ (by simp) hs
  exact ⟨e4, e2.1, e3.1⟩

theorem mutual_congr {x b b' : List (Part P D)} (hb : b'.map Part.prev = b.map Part.prev)
    (h : Mutual x b) : Mutual x b' := by
  have hl : b'.length = b.length := by
    have := congrArg List.length hb; simpa using this
  have hp : ∀ (k : Nat) (v : Int), PointsBack b' k v ↔ PointsBack b k v := by
    intro k v
    have e := congrArg (fun l => l[k]?) hb
    simp only [List.getElem?_map] at e
    unfold PointsBack
    cases h1 : b[k]? with
    | none => rw [h1] at e; simp at e; simp [e]
    | some q =>
      rw [h1] at e
      cases h2 : b'[k]? with
      | none => rw [h2] at e; simp at e
      | some q' =>
        rw [h2] at e
        simp only [Option.map_some, Option.some.injEq] at e
        simp [e]
  refine ⟨fun h' k => (h.1 h' k).trans (hp k h').symm, ?_, ?_⟩
  · intro p hpm
    rw [hl]; exact h.2.1 p hpm
  · intro q hq
    have : q.prev ∈ b'.map Part.prev := List.mem_map_of_mem hq
    rw [hb, List.mem_map] at this
    obtain ⟨q0, hq0, e⟩ := this
    rw [← e]; exact h.2.2 q0 hq0

end

/-! ### Schedules -/

section
variable {F : Type}

@[simp] theorem readsOf_append (a b : List (Ev F)) : readsOf (a ++ b) = readsOf a ++ readsOf b := by
  induction a with
  | nil => rfl
  | cons e l ih => cases e <;> simp [readsOf, ih]

@[simp] theorem writesOf_append (a b : List (Ev F)) :
    writesOf (a ++ b) = writesOf a ++ writesOf b := by
  induction a with
  | nil => rfl
  | cons e l ih => cases e <;> simp [writesOf, ih]

@[simp] theorem stepsOf_append (a b : List (Ev F)) : stepsOf (a ++ b) = stepsOf a ++ stepsOf b := by
  induction a with
  | nil => rfl
  | cons e l ih => cases e <;> simp [stepsOf, ih]

theorem intRange_succ (a : Int) (n : Nat) : intRange a (n + 1) = intRange a n ++ [a + n] := by
  simp [intRange, List.range_succ]

theorem forwardStart_eq (disk : Int → F) (first : Int) (a b c d : F) :
    forwardStart disk first ⟨[a, b, c, d], []⟩ =
      ⟨[c, disk first, disk (first + 1), disk (first + 2)],
        [.read first, .read (first + 1), .read (first + 2)]⟩ := by
  simp [forwardStart, List.range_succ, readAtEnd, Run.next, Run.prev, fbNext, fbPrev]

theorem backStart_eq (disk : Int → F) (last : Int) (a b c d : F) :
    backStart disk last ⟨[a, b, c, d], []⟩ =
      ⟨[disk last, disk (last - 1), disk (last - 2), disk (last - 3)],
        [.read last, .read (last - 1), .read (last - 2), .read (last - 3)]⟩ := by
  simp [backStart, List.range_succ, readAtEnd, Run.next, Run.prev, fbNext, fbPrev]

/-- One forward step, spelled out. -/
theorem forwardStep_ok {disk : Int → F} {process : List F → Py (List F)} {last s : Int}
    {r r' : Run F} (h : forwardStep disk process last s r = .ok r')
    (hp : ∀ b b', process b = .ok b' → b'.length = b.length) (hl : r.buf.length = 4) :
    ∃ a b c d, process r.buf = .ok [a, b, c, d] ∧
      r' = ⟨[b, c, d, if s < last - 2 then disk (s + 3) else a],
        r.log ++ [.step s r.buf, .write s b] ++ if s < last - 2 then [.read (s + 3)] else []⟩ := by
  unfold forwardStep at h
  obtain ⟨buf, h1, h⟩ := bind_ok h
  have hb := hp _ _ h1
  rw [hl] at hb
  match buf, hb with
  | [a, b, c, d], _ =>
    obtain ⟨r2, h2, h⟩ := bind_ok h
    have e : r2 = ⟨[b, c, d, a], r.log ++ [.step s r.buf] ++ [.write s b]⟩ := by
      simp [writeFromStart, Run.next, fbNext, pyGet, bind, Except.bind] at h2
      rw [← h2]; simp
    subst e
    refine ⟨a, b, c, d, h1, ?_⟩
    cases h
    split_ifs <;> simp [readAtEnd]

/-- The state at the beginning of step `first + i` of a forward run over `L` steps. -/
structure FInv (no : F → Int) (first : Int) (L i : Nat) (r : Run F) : Prop where
  buf : ∃ a b c d, r.buf = [a, b, c, d] ∧ no b = first + i ∧
    (i + 1 ≤ max L 2 → no c = first + i + 1) ∧ (i + 2 ≤ max L 2 → no d = first + i + 2)
  reads : readsOf r.log = intRange first (min (i + 3) (max (L + 1) 3))
  writes : (writesOf r.log).map (fun w => (w.1, no w.2)) = (intRange first i).map (fun n => (n, n))
  steps : (stepsOf r.log).map Prod.fst = intRange first i
  stepBufs : ∀ n b, (n, b) ∈ stepsOf r.log → ∃ x y z w, b = [x, y, z, w] ∧ no y = n ∧
    no z = n + 1 ∧ (n + 2 ≤ first + max L 2 → no w = n + 2)

theorem FInv.step {no : F → Int} {disk : Int → F} {process : List F → Py (List F)} {first : Int}
    {L i : Nat} {r r' : Run F} (hd : ∀ n, no (disk n) = n)
    (hp : ∀ b b', process b = .ok b' → b'.map no = b.map no) (hi : i < L)
    (hI : FInv no first L i r)
    (h : forwardStep disk process (first + L) (first + i) r = .ok r') :
    FInv no first L (i + 1) r' := by
  obtain ⟨⟨a, b, c, d, hb, nb, nc, nd⟩, hr, hw, hs, hsb⟩ := hI
  have hpl : ∀ b b', process b = .ok b' → b'.length = b.length := by
    intro b b' hbb
    have := congrArg List.length (hp b b' hbb)
    simpa using this
  obtain ⟨a', b', c', d', h1, rfl⟩ := forwardStep_ok h hpl (by rw [hb]; rfl)
  have hno := hp _ _ h1
  rw [hb] at hno
  simp only [List.map_cons, List.map_nil, List.cons.injEq, and_true] at hno
  obtain ⟨n0, n1, n2, n3⟩ := hno
  have hcond : (first + (i : Int) < first + (L : Int) - 2) ↔ i + 2 < L := by omega
  refine ⟨⟨b', c', d', _, rfl, by rw [n2, nc (by omega)]; push_cast; ring, ?_, ?_⟩, ?_, ?_, ?_, ?_⟩
  · intro hh
    rw [n3, nd (by omega)]; push_cast; ring
  · intro hh
    rw [if_pos (hcond.2 (by omega)), hd]; push_cast; ring
  · simp only [readsOf_append, hr]
    by_cases hc : i + 2 < L
    · rw [if_pos (hcond.2 hc)]
      have e1 : min (i + 3) (max (L + 1) 3) = i + 3 := by omega
      have e2 : min (i + 1 + 3) (max (L + 1) 3) = i + 3 + 1 := by omega
      rw [e1, e2, intRange_succ first (i + 3)]
      simp only [readsOf, List.append_nil, List.append_cancel_left_eq, List.cons.injEq, and_true]
      push_cast; ring
    · rw [if_neg (fun x => hc (hcond.1 x))]
      have e1 : min (i + 3) (max (L + 1) 3) = min (i + 1 + 3) (max (L + 1) 3) := by omega
      rw [e1]
      simp [readsOf]
  · simp only [writesOf_append, List.map_append, hw, intRange_succ]
    have : writesOf (if first + (i : Int) < first + (L : Int) - 2 then
        [Ev.read (F := F) (first + i + 3)] else []) = [] := by split_ifs <;> rfl
    rw [this]
    simp [writesOf, n1, nb]
  · simp only [stepsOf_append, List.map_append, hs, intRange_succ]
    have : stepsOf (if first + (i : Int) < first + (L : Int) - 2 then
        [Ev.read (F := F) (first + i + 3)] else []) = [] := by split_ifs <;> rfl
    rw [this]
    simp [stepsOf]
  · intro n bb hm
    simp only [stepsOf_append, List.mem_append] at hm
    have : stepsOf (if first + (i : Int) < first + (L : Int) - 2 then
        [Ev.read (F := F) (first + i + 3)] else []) = [] := by split_ifs <;> rfl
    rw [this] at hm
    rcases hm with (hm | hm) | hm
    · exact hsb n bb hm
    · simp only [stepsOf, List.mem_singleton, Prod.mk.injEq] at hm
      obtain ⟨rfl, rfl⟩ := hm
      exact ⟨a, b, c, d, hb, nb, nc (by omega), fun hh => nd (by omega)⟩
    · simp at hm

theorem FInv.steps_all {no : F → Int} {disk : Int → F} {process : List F → Py (List F)} {first : Int}
    {L : Nat} (hd : ∀ n, no (disk n) = n)
    (hp : ∀ b b', process b = .ok b' → b'.map no = b.map no) (k : Nat) :
    ∀ i r r', i + k = L → FInv no first L i r →
    forwardSteps disk process (first + L) k (first + i) r = .ok r' → FInv no first L L r' := by
  induction k with
  | zero =>
    intro i r r' hi hI h
    cases h
    have : i = L := by omega
    subst this; exact hI
  | succ k ih =>
    intro i r r' hi hI h
    unfold forwardSteps at h
    obtain ⟨r1, h1, h⟩ := bind_ok h
    have := FInv.step hd hp (by omega) hI h1
    refine ih (i + 1) r1 r' (by omega) this ?_
    rw [← h]; congr 1; push_cast; ring


/-- Everything a forward run of `L ≥ 1` steps does to the disk. -/
theorem forwardRun_schedule {no : F → Int} {disk : Int → F} {process : List F → Py (List F)}
    {first : Int} {L : Nat} {a b c d : F} {r : Run F} (hd : ∀ n, no (disk n) = n)
    (hp : ∀ b b', process b = .ok b' → b'.map no = b.map no)
    (h : forwardRun disk process first (first + L) [a, b, c, d] = .ok r) :
    1 ≤ L ∧ readsOf r.log = intRange first (max (L + 1) 3) ∧
    (writesOf r.log).map (fun w => (w.1, no w.2)) =
      (intRange first (L + 1)).map (fun n => (n, n)) ∧
    (stepsOf r.log).map Prod.fst = intRange first L ∧
    ∀ n bf, (n, bf) ∈ stepsOf r.log → ∃ x y z w, bf = [x, y, z, w] ∧ no y = n ∧
      no z = n + 1 ∧ (n + 2 ≤ first + max L 2 → no w = n + 2) := by
  unfold forwardRun at h
  obtain ⟨r1, h1, h⟩ := bind_ok h
  have hL : ((first + (L : Int)) - first).toNat = L := by omega
  rw [hL, forwardStart_eq] at h1
  have h0 : FInv no first L 0 ⟨[c, disk first, disk (first + 1), disk (first + 2)],
        [.read first, .read (first + 1), .read (first + 2)]⟩ := by
    refine ⟨⟨c, _, _, _, rfl, ?_, ?_, ?_⟩, ?_, ?_, ?_, ?_⟩
    · rw [hd]; simp
    · intro _; rw [hd]; simp
    · intro _; rw [hd]; simp
    · have : min (0 + 3) (max (L + 1) 3) = 3 := by omega
      rw [this]; simp [readsOf, intRange, List.range_succ]
    · simp [writesOf, intRange]
    · simp [stepsOf, intRange]
    · simp [stepsOf]
  have h2 := FInv.steps_all hd hp L 0 _ r1 (by omega) h0 (by rw [← h1]; congr 1; simp)
  unfold forwardFinish at h
  split_ifs at h with hz
  obtain ⟨⟨a', b', c', d', hb, nb, nc, nd⟩, hr, hw, hs, hsb⟩ := h2
  have e : r = ⟨[b', c', d', a'], r1.log ++ [.write (first + L) b']⟩ := by
    simp [writeFromStart, Run.next, fbNext, pyGet, bind, Except.bind, hb] at h
    rw [← h]
  subst e
  refine ⟨by omega, ?_, ?_, ?_, ?_⟩
  · have e1 : min (L + 3) (max (L + 1) 3) = max (L + 1) 3 := by omega
    simp only [readsOf_append, hr, e1, readsOf, List.append_nil]
  · simp only [writesOf_append, List.map_append, hw, intRange_succ]
    simp [writesOf, nb]
  · simp [hs, stepsOf]
  · intro n bf hm
    simp only [stepsOf_append, List.mem_append, stepsOf, List.not_mem_nil, or_false] at hm
    exact hsb n bf hm

end

/-! ### Links over a whole run -/

section
variable {P J C I D : Type} [Field D] [LinearOrder D]

theorem Extends.keeps {f f' : Frame P D I} (h : Extends f f') : KeepsPositions f f' := by
  obtain ⟨-, e, h, -⟩ := h
  exact ⟨e.map Part.x, by rw [h, List.map_append]⟩

theorem KeepsPositions.trans {a b c : Frame P D I} (h : KeepsPositions a b)
    (h' : KeepsPositions b c) : KeepsPositions a c := by
  obtain ⟨e, h⟩ := h
  obtain ⟨e', h'⟩ := h'
  exact ⟨e ++ e', by rw [h', h, List.append_assoc]⟩

/-- State at the beginning of step `first + i`. -/
structure KInv (disk : Int → Frame P D I) (first : Int) (L i : Nat) (r : Run (Frame P D I)) :
    Prop where
  buf : ∃ a b c d, r.buf = [a, b, c, d] ∧ (∀ p ∈ b.parts, p.next = NEXT_NONE) ∧
    KeepsPositions (disk (first + i)) b ∧
    (i = 0 → ∀ p ∈ b.parts, p.prev = PREV_NONE) ∧
    (∀ w ∈ (writesOf r.log).getLast?, Mutual w.2.parts b.parts) ∧
    (i + 1 ≤ max L 2 → (∀ p ∈ c.parts, Unlinked p) ∧ KeepsPositions (disk (first + i + 1)) c) ∧
    (i + 2 ≤ max L 2 → (∀ p ∈ d.parts, Unlinked p) ∧ KeepsPositions (disk (first + i + 2)) d)
  chain : LinkChain (writesOf r.log)
  keeps : ∀ w ∈ writesOf r.log, KeepsPositions (disk w.1) w.2
  firstFree : ∀ w ∈ (writesOf r.log).head?, ∀ p ∈ w.2.parts, p.prev = PREV_NONE
  len : (writesOf r.log).length = i

theorem trackBuf_length {g : Geo P J C I D} {b b' : List (Frame P D I)}
    (h : trackBuf g b = .ok b') : b'.length = b.length := by
  obtain ⟨b0, b1, b2, b3, b1', b2', b3', k, rfl, rfl, -⟩ := trackBuf_spec h
  rfl

theorem Extends.unlinked {f f' : Frame P D I} (h : Extends f f') (hu : ∀ p ∈ f.parts, Unlinked p) :
    ∀ p ∈ f'.parts, Unlinked p := by
  obtain ⟨-, e, h, h'⟩ := h
  intro p hp
  rw [h, List.mem_append] at hp
  rcases hp with hp | hp
  · exact hu p hp
  · exact (h' p hp).1

theorem KInv.step {g : Geo P J C I D} (hg : SearchSane g) {disk : Int → Frame P D I} {first : Int}
    {L i : Nat} {r r' : Run (Frame P D I)} (hd : ∀ n, ∀ p ∈ (disk n).parts, Unlinked p)
    (hi : i < L) (hI : KInv disk first L i r)
    (h : forwardStep disk (trackBuf g) (first + L) (first + i) r = .ok r') :
    KInv disk first L (i + 1) r' := by
  obtain ⟨⟨a, b, c, d, hb, ub, kb, pb, mb, hc, hdd⟩, hch, hkp, hff, hlen⟩ := hI
  obtain ⟨a', b', c', d', h1, rfl⟩ := forwardStep_ok h (fun _ _ => trackBuf_length)
    (by rw [hb]; rfl)
  rw [hb] at h1
  obtain ⟨b0, b1, b2, b3, b1', b2', b3', k, e1, e2, hst⟩ := trackBuf_spec h1
  cases e1
  cases e2
  obtain ⟨uc, kc⟩ := hc (by omega)
  obtain ⟨s1, s2, s3, s4, -, -, s7, s8⟩ := stepFrames_spec hg ub uc hst
  have hcond : (first + (i : Int) < first + (L : Int) - 2) ↔ i + 2 < L := by omega
  have hwr : writesOf (r.log ++ [Ev.step (first + (i : Int)) r.buf, Ev.write (first + (i : Int)) b'] ++
      if first + (i : Int) < first + (L : Int) - 2 then [Ev.read (first + (i : Int) + 3)] else []) =
      writesOf r.log ++ [(first + (i : Int), b')] := by
    split_ifs <;> simp [writesOf]
  have kb' : KeepsPositions (disk (first + i)) b' := by
    obtain ⟨e, kb⟩ := kb
    unfold SamePositions at s2
    exact ⟨e, by rw [s2, kb]⟩
  refine ⟨⟨b', c', d', _, rfl, s4, ?_, ?_, ?_, ?_, ?_⟩, ?_, ?_, ?_, ?_⟩
  · have : first + ((i + 1 : Nat) : Int) = first + i + 1 := by push_cast; ring
    rw [this]
    exact KeepsPositions.trans kc s8
  · intro h0; omega
  · simp only [hwr]
    intro w hw
    simp at hw
    subst hw
    exact s1
  · intro hh
    obtain ⟨ud, kd⟩ := hdd (by omega)
    refine ⟨s7.unlinked ud, ?_⟩
    have : first + ((i + 1 : Nat) : Int) + 1 = first + i + 2 := by push_cast; ring
    rw [this]
    exact KeepsPositions.trans kd s7.keeps
  · intro hh
    rw [if_pos (hcond.2 (by omega))]
    refine ⟨hd _, ?_⟩
    have : first + ((i + 1 : Nat) : Int) + 2 = first + i + 3 := by push_cast; ring
    rw [this]
    exact ⟨[], by simp⟩
  · simp only [hwr]
    unfold LinkChain at hch ⊢
    rw [List.isChain_append]
    refine ⟨hch, by simp, ?_⟩
    intro w hw v hv
    simp at hv
    subst hv
    exact mutual_congr s3 (mb w hw)
  · simp only [hwr]
    intro w hw
    rw [List.mem_append, List.mem_singleton] at hw
    rcases hw with hw | rfl
    · exact hkp w hw
    · exact kb'
  · simp only [hwr]
    intro w hw
    cases hl : writesOf r.log with
    | nil =>
      rw [hl] at hw hlen
      simp at hw
      subst hw
      intro p hp
      have : p.prev ∈ b'.parts.map Part.prev := List.mem_map_of_mem hp
      rw [s3, List.mem_map] at this
      obtain ⟨q, hq, e⟩ := this
      rw [← e]
      exact pb (by simpa using hlen.symm) q hq
    | cons x xs =>
      rw [hl] at hw hff
      exact hff w (by simpa using hw)
  · simp only [hwr]; simp [hlen]

theorem KInv.steps_all {g : Geo P J C I D} (hg : SearchSane g) {disk : Int → Frame P D I}
    {first : Int} {L : Nat} (hd : ∀ n, ∀ p ∈ (disk n).parts, Unlinked p) (k : Nat) :
    ∀ i r r', i + k = L → KInv disk first L i r →
    forwardSteps disk (trackBuf g) (first + L) k (first + i) r = .ok r' →
    KInv disk first L L r' := by
  induction k with
  | zero =>
    intro i r r' hi hI h
    cases h
    have : i = L := by omega
    subst this; exact hI
  | succ k ih =>
    intro i r r' hi hI h
    unfold forwardSteps at h
    obtain ⟨r1, h1, h⟩ := bind_ok h
    have := KInv.step hg hd (by omega) hI h1
    refine ih (i + 1) r1 r' (by omega) this ?_
    rw [← h]; congr 1; push_cast; ring

/-- What a full forward run leaves in the written frames. -/
theorem forwardRun_links {g : Geo P J C I D} (hg : SearchSane g) {disk : Int → Frame P D I}
    {first : Int} {L : Nat} {a b c d : Frame P D I} {r : Run (Frame P D I)}
    (hd : ∀ n, ∀ p ∈ (disk n).parts, Unlinked p)
    (h : forwardRun disk (trackBuf g) first (first + L) [a, b, c, d] = .ok r) :
    (writesOf r.log).length = L + 1 ∧ LinkChain (writesOf r.log) ∧
    (∀ w ∈ writesOf r.log, KeepsPositions (disk w.1) w.2) ∧
    (∀ w ∈ (writesOf r.log).head?, ∀ p ∈ w.2.parts, p.prev = PREV_NONE) ∧
    (∀ w ∈ (writesOf r.log).getLast?, ∀ p ∈ w.2.parts, p.next = NEXT_NONE) := by
  unfold forwardRun at h
  obtain ⟨r1, h1, h⟩ := bind_ok h
  have hL : ((first + (L : Int)) - first).toNat = L := by omega
  rw [hL, forwardStart_eq] at h1
  have h0 : KInv disk first L 0 ⟨[c, disk first, disk (first + 1), disk (first + 2)],
        [.read first, .read (first + 1), .read (first + 2)]⟩ := by
    refine ⟨⟨c, _, _, _, rfl, fun p hp => (hd _ p hp).2, ⟨[], by simp⟩,
      fun _ p hp => (hd _ p hp).1, ?_, ?_, ?_⟩, ?_, ?_, ?_, ?_⟩
    · simp [writesOf]
    · intro _; exact ⟨hd _, [], by simp⟩
    · intro _; exact ⟨hd _, [], by simp⟩
    · simp [writesOf, LinkChain]
    · simp [writesOf]
    · simp [writesOf]
    · simp [writesOf]
  have h2 := KInv.steps_all hg hd L 0 _ r1 (by omega) h0 (by rw [← h1]; congr 1; simp)
  unfold forwardFinish at h
  split_ifs at h with hz
  obtain ⟨⟨a', b', c', d', hb, ub, kb, pb, mb, -, -⟩, hch, hkp, hff, hlen⟩ := h2
  have e : r = ⟨[b', c', d', a'], r1.log ++ [.write (first + L) b']⟩ := by
    simp [writeFromStart, Run.next, fbNext, pyGet, bind, Except.bind, hb] at h
    rw [← h]
  subst e
  have hwr : writesOf (r1.log ++ [Ev.write (first + (L : Int)) b']) =
      writesOf r1.log ++ [(first + (L : Int), b')] := by simp [writesOf]
  have hne : writesOf r1.log ≠ [] := by
    intro h0; rw [h0] at hlen; simp at hlen; omega
  refine ⟨by simp [hwr, hlen], ?_, ?_, ?_, ?_⟩
  · simp only [hwr]
    unfold LinkChain at hch ⊢
    rw [List.isChain_append]
    refine ⟨hch, by simp, ?_⟩
    intro w hw v hv
    simp at hv
    subst hv
    exact mb w hw
  · simp only [hwr]
    intro w hw
    rw [List.mem_append, List.mem_singleton] at hw
    rcases hw with hw | rfl
    · exact hkp w hw
    · exact kb
  · simp only [hwr]
    intro w hw
    apply hff w
    cases hl : writesOf r1.log with
    | nil => exact absurd hl hne
    | cons x xs => rw [hl] at hw; simpa using hw
  · simp only [hwr]
    intro w hw
    simp at hw
    subst hw
    exact ub

end
end Verif.Track
