/-
C92: a backward step misses no link.
-/
import Verif.Props.BackStep

set_option linter.unusedSectionVars false

namespace Verif.Track
open Verif.Track.Spec

section
variable {P J C I D : Type} [Field D] [LinearOrder D]

/-! ### Specification -/

/-- The search list `w` (ended by -1) offers particle `k` of the earlier frame (positions `earlier`) to a particle at `x1`
that goes to `x0` in the later frame, and it is acceptable, with decision value `d`. -/
def BackOffered (g : Geo P J C I D) (x0 x1 : P) (earlier : List P) (w : List Found) (d : D) (k : Nat) : Prop :=
  ∃ f ∈ w.takeWhile (fun f => decide (f.ftnr ≠ -1)), f.ftnr = k ∧ ∃ x3, earlier[k]? = some x3 ∧
    g.inBounds (g.sub x1 x3) = true ∧ ∃ angle acc, g.angleAcc x1 (g.predict x0 x1) x3 = .ok (angle, acc) ∧
      Smooth g angle acc ∧
      d = ((g.dist x1 x3 + g.dist x0 x1) / 2 / g.lmax + acc / g.dacc + angle / g.dangle) / (f.freq : D)

/-- Least decision value, then least number. -/
def BackBest (g : Geo P J C I D) (x0 x1 : P) (earlier : List P) (w : List Found) (d : D) (k : Nat) : Prop :=
  BackOffered g x0 x1 earlier w d k ∧
    ∀ d' k', BackOffered g x0 x1 earlier w d' k' → d < d' ∨ (d = d' ∧ k ≤ k')

/-! ### Proof -/

theorem backCands_exact {g : Geo P J C I D} {x0 x1 : P} {b2 : Frame P D I} :
    ∀ (w : List Found) (cur cur' : Part P D), (∀ f ∈ w, -1 ≤ f.ftnr) →
    backCands g x0 x1 (g.predict x0 x1) b2 w cur = .ok cur' →
    ∀ x, x ∈ cur'.cands ↔ x ∈ cur.cands ∨ ∃ k : Nat, x.2 = k ∧ BackOffered g x0 x1 b2.xs w x.1 k := by
  intro w
  induction w with
  | nil => intro cur cur' _ h; simp [backCands] at h
  | cons f rest ih =>
    intro cur cur' hw h x
    have hw' : ∀ f ∈ rest, -1 ≤ f.ftnr := fun f hf => hw f (by simp [hf])
    unfold backCands at h
    by_cases h1 : f.ftnr = TR_UNUSED
    · rw [if_pos h1] at h; cases h
      have : (f :: rest).takeWhile (fun f => decide (f.ftnr ≠ -1)) = [] := by
        rw [List.takeWhile_cons]; simp only [TR_UNUSED] at h1; simp [h1]
      constructor
      · exact Or.inl
      · rintro (h | ⟨k, -, f', hf, -⟩)
        · exact h
        · rw [this] at hf; simp at hf
    have h1' : f.ftnr ≠ -1 := h1
    have htw : (f :: rest).takeWhile (fun f => decide (f.ftnr ≠ -1)) =
        f :: rest.takeWhile (fun f => decide (f.ftnr ≠ -1)) := by
      rw [List.takeWhile_cons]; simp [h1']
    rw [if_neg h1] at h
    obtain ⟨r, hr, h⟩ := bind_ok h
    have h0 : 0 ≤ f.ftnr := by
      have := hw f (by simp)
      omega
    have hr := pyGetI_nonneg h0 hr
    have hx : b2.xs[f.ftnr.toNat]? = some r.x := by simp [Frame.xs, hr]
    have hsplit : ∀ d (k : Nat), BackOffered g x0 x1 b2.xs (f :: rest) d k ↔
        (f.ftnr = k ∧ g.inBounds (g.sub x1 r.x) = true ∧ ∃ angle acc,
          g.angleAcc x1 (g.predict x0 x1) r.x = .ok (angle, acc) ∧ Smooth g angle acc ∧
          d = ((g.dist x1 r.x + g.dist x0 x1) / 2 / g.lmax + acc / g.dacc + angle / g.dangle) / (f.freq : D)) ∨
        BackOffered g x0 x1 b2.xs rest d k := by
      intro d k
      unfold BackOffered
      rw [htw]
      simp only [List.mem_cons, exists_eq_or_imp]
      refine or_congr ?_ Iff.rfl
      constructor
      · rintro ⟨a, x3, b, c⟩
        rw [a, Int.toNat_natCast, b] at hx
        rw [← Option.some.inj hx]
        exact ⟨a, c⟩
      · rintro ⟨a, c⟩
        exact ⟨a, r.x, by rw [← hx, a, Int.toNat_natCast], c⟩
    have hskip : (∀ d (k : Nat), ¬ (f.ftnr = k ∧ g.inBounds (g.sub x1 r.x) = true ∧ ∃ angle acc,
          g.angleAcc x1 (g.predict x0 x1) r.x = .ok (angle, acc) ∧ Smooth g angle acc ∧
          d = ((g.dist x1 r.x + g.dist x0 x1) / 2 / g.lmax + acc / g.dacc + angle / g.dangle) / (f.freq : D))) →
        backCands g x0 x1 (g.predict x0 x1) b2 rest cur = .ok cur' →
        (x ∈ cur'.cands ↔ x ∈ cur.cands ∨ ∃ k : Nat, x.2 = k ∧ BackOffered g x0 x1 b2.xs (f :: rest) x.1 k) := by
      intro hno h
      rw [ih _ _ hw' h x]
      simp only [hsplit, hno, false_or]
    by_cases h2 : g.inBounds (g.sub x1 r.x) = true
    swap
    · rw [if_neg h2] at h
      exact hskip (fun d k hh => h2 hh.2.1) h
    rw [if_pos h2] at h
    obtain ⟨⟨angle, acc⟩, ha, h⟩ := bind_ok h
    simp only at h
    by_cases h3 : g.gate acc angle = true
    swap
    · rw [if_neg h3] at h
      refine hskip ?_ h
      rintro d k ⟨-, -, angle', acc', h4, h5, -⟩
      rw [ha] at h4
      cases h4
      exact h3 (by simpa [Geo.gate, Smooth] using h5)
    rw [if_pos h3] at h
    obtain ⟨cur1, h4, h⟩ := bind_ok h
    unfold Part.register at h4
    split_ifs at h4
    cases h4
    rw [ih _ _ hw' h x]
    simp only [hsplit, List.mem_append, List.mem_singleton, or_assoc]
    refine or_congr Iff.rfl ?_
    constructor
    · rintro (rfl | ⟨k, e1, e2⟩)
      · exact ⟨f.ftnr.toNat, by simp; omega, Or.inl ⟨by simp; omega, h2, angle, acc, ha, gate_smooth h3, rfl⟩⟩
      · exact ⟨k, e1, Or.inr e2⟩
    · rintro ⟨k, e1, ⟨e2, -, a', c', e3, e4, e5⟩ | e2⟩
      · rw [ha] at e3
        cases e3
        refine Or.inl (Prod.ext e5 ?_)
        simp only; omega
      · exact Or.inr ⟨k, e1, e2⟩

/-- The search loop for a particle that is searched for. -/
theorem backSearchLoop_exact {g : Geo P J C I D} (hg : SearchSane g) {xz : P → Bool} {y : P → D} {b0 : Frame P D I}
    (k : Nat) : ∀ (m : Nat) (b1 b2 b1' b2' : Frame P D I), m + k = b1.parts.length →
    backSearchLoop g xz y b0 (List.range' m k) b1 b2 = .ok (b1', b2') →
    ∀ (h : Nat) (p r : Part P D) (w : List Found), m ≤ h → b1.parts[h]? = some p → 0 ≤ p.next → p.prev = -1 →
      b0.parts[p.next.toNat]? = some r → g.search (g.predict r.x p.x) (g.proj (g.predict r.x p.x)) b2.img = .ok w →
      ∃ cs, b1'.parts[h]? = some { p with cands := cs } ∧
        ∀ x, x ∈ cs ↔ ∃ k : Nat, x.2 = k ∧ BackOffered g r.x p.x b2.xs w x.1 k := by
  induction k with
  | zero =>
    intro m b1 b2 b1' b2' hm hs h p r w hh hp
    have := (List.getElem?_eq_some_iff.1 hp).1
    omega
  | succ k ih =>
    intro m b1 b2 b1' b2' hm hs h p r w hh hp hn hv hr hw
    rw [List.range'_succ] at hs
    simp only [backSearchLoop] at hs
    obtain ⟨⟨cur, b2a⟩, h1, hs'⟩ := bind_ok hs
    have hmlt : m < b1.parts.length := by omega
    obtain ⟨q, hq⟩ : ∃ q, b1.parts[m]? = some q := ⟨_, List.getElem?_eq_getElem hmlt⟩
    obtain ⟨rfl, h2⟩ := backSearchOne_spec hg hq h1
    by_cases hhm : m = h
    · subst hhm
      rw [hq] at hp
      cases hp
      obtain ⟨-, -, -, -, e5⟩ := backSearchLoop_spec hg _ (m + 1) _ _ _ _ (by simp; omega) hs'
      have hc := (e5 m cur (by simp [hmlt])).1 (by omega)
      unfold backSearchOne at h1
      obtain ⟨p', hp', h1⟩ := bind_ok h1
      rw [pyGet_some hq] at hp'
      cases hp'
      rw [if_neg (by push Not; exact ⟨hn, hv⟩)] at h1
      obtain ⟨r', hr', h1⟩ := bind_ok h1
      have hr' := pyGetI_nonneg hn hr'
      rw [hr] at hr'
      cases hr'
      obtain ⟨w', hw', h1⟩ := bind_ok h1
      rw [hw] at hw'
      cases hw'
      obtain ⟨cur1, hc1, h1⟩ := bind_ok h1
      have := backTryAdd_same h1
      cases this
      obtain ⟨l, e1, -⟩ := backCands_more _ _ _ (hg _ _ _ _ hw) hc1
      have hex := backCands_exact _ _ _ (hg _ _ _ _ hw) hc1
      refine ⟨l, by rw [hc, e1]; simp, ?_⟩
      intro x
      have := hex x
      rw [e1] at this
      simpa using this
    · refine ih (m + 1) _ _ _ _ (by simp; omega) hs' h p r w (by omega) ?_ hn hv hr hw
      simp only; rw [List.getElem?_set, if_neg hhm]; exact hp

/-- The linking loop: what happened to the particles before `m`. -/
structure BComp (accept : Nat → Int → Py Bool) (c0 n0 : List (Part P D)) (m : Nat) (c n : List (Part P D)) : Prop where
  free : ∀ (h : Nat) p, h < m → c0[h]? = some p → p.cands = [] → ∃ p', c[h]? = some p' ∧ p'.prev = p.prev
  best : ∀ (h : Nat) p d (k : Nat), h < m → c0[h]? = some p → p.cands.head? = some (d, (k : Int)) →
    ∃ p' r, c[h]? = some p' ∧ n[k]? = some r ∧ ((p'.prev = k ∧ p'.final = d) ∨ (p'.prev = p.prev ∧
      ((∃ r0, n0[k]? = some r0 ∧ r0.next ≠ NEXT_NONE) ∨ (∃ j : Nat, j < h ∧ r.next = j) ∨
        (r.prev ≠ PREV_NONE ∧ accept h k = .ok false))))

theorem BComp.keep {accept : Nat → Int → Py Bool} {c0 n0 c n c' n' : List (Part P D)} {m : Nat}
    (h : BComp accept c0 n0 m c n) (hc : ∀ i : Nat, i ≠ m → c'[i]? = c[i]?)
    (hn : ∀ (k : Nat) r, n[k]? = some r → ∃ r', n'[k]? = some r' ∧ r'.prev = r.prev ∧ (r.next ≠ NEXT_NONE → r'.next = r.next))
    (h0 : ∀ p, c0[m]? = some p → p.cands = [] → ∃ p', c'[m]? = some p' ∧ p'.prev = p.prev)
    (h1 : ∀ p d (k : Nat), c0[m]? = some p → p.cands.head? = some (d, (k : Int)) →
      ∃ p' r, c'[m]? = some p' ∧ n'[k]? = some r ∧ ((p'.prev = k ∧ p'.final = d) ∨ (p'.prev = p.prev ∧
        ((∃ r0, n0[k]? = some r0 ∧ r0.next ≠ NEXT_NONE) ∨ (∃ j : Nat, j < m ∧ r.next = j) ∨
          (r.prev ≠ PREV_NONE ∧ accept m k = .ok false))))) :
    BComp accept c0 n0 (m + 1) c' n' := by
  constructor
  · intro i p hi hp he
    by_cases him : i = m
    · subst him; exact h0 p hp he
    · rw [hc i him]; exact h.free i p (by omega) hp he
  · intro i p d k hi hp he
    by_cases him : i = m
    · subst him; exact h1 p d k hp he
    · rw [hc i him]
      obtain ⟨p', r, e1, e2, e3⟩ := h.best i p d k (by omega) hp he
      obtain ⟨r', f1, f2, f3⟩ := hn k r e2
      refine ⟨p', r', e1, f1, e3.imp id (And.imp id (Or.imp id (Or.imp ?_ ?_)))⟩
      · rintro ⟨j, j1, j2⟩
        exact ⟨j, j1, by rw [f3 (by rw [j2]; simp only [NEXT_NONE]; omega), j2]⟩
      · rintro ⟨j1, j2⟩
        exact ⟨by rw [f2]; exact j1, j2⟩

theorem backLinkOne_comp {accept : Nat → Int → Py Bool} {c0 n0 c n c' n' : List (Part P D)} {m : Nat}
    (hk : ∀ p ∈ c0, ∀ x ∈ p.cands, 0 ≤ x.2)
    (h : BInv accept c0 n0 m c n) (hB : BComp accept c0 n0 m c n) (hs : backLinkOne accept m c n = .ok (c', n')) :
    BComp accept c0 n0 (m + 1) c' n' := by
  unfold backLinkOne at hs
  obtain ⟨p, hp, hs⟩ := bind_ok hs
  have hp := pyGet_ok hp
  have hm : m < c.length := (List.getElem?_eq_some_iff.1 hp).1
  have hm0 : m < c0.length := by rw [← h.clen]; exact hm
  obtain ⟨p0, hp0⟩ : ∃ p0, c0[m]? = some p0 := ⟨_, List.getElem?_eq_getElem hm0⟩
  obtain ⟨pv, fin, a, a', -⟩ := h.cur m p0 hp0
  rw [hp] at a
  have a := Option.some.inj a
  obtain ⟨rfl, rfl⟩ := a' (le_refl _)
  have hpc : p.cands = p0.cands := by rw [a]
  have hpp : p.prev = p0.prev := by rw [a]
  have same : ∀ (k : Nat) r, n[k]? = some r → ∃ r', n[k]? = some r' ∧ r'.prev = r.prev ∧ (r.next ≠ NEXT_NONE → r'.next = r.next) :=
    fun k r hr => ⟨r, hr, rfl, fun _ => rfl⟩
  split at hs
  · rename_i hc
    cases hs
    refine hB.keep (fun _ _ => rfl) same ?_ ?_
    · intro q hq _
      rw [hp0] at hq; cases hq
      exact ⟨p, hp, hpp⟩
    · intro q d k hq hd
      rw [hp0] at hq; cases hq
      rw [← hpc, hc] at hd
      simp at hd
  · rename_i d k rest hc
    obtain ⟨r, hr, hs⟩ := bind_ok hs
    have hk0 : 0 ≤ k := hk p0 (List.mem_of_getElem? hp0) (d, k) (by rw [← hpc, hc]; simp)
    have hr := pyGetI_nonneg hk0 hr
    obtain ⟨kn, rfl⟩ := Int.eq_ofNat_of_zero_le hk0
    simp only [Int.toNat_natCast] at hr
    have hkl : kn < n.length := (List.getElem?_eq_some_iff.1 hr).1
    have hno : ∀ q, c0[m]? = some q → q.cands = [] → False := by
      intro q hq hq0
      rw [hp0] at hq; cases hq
      rw [← hpc, hc] at hq0
      simp at hq0
    have hhd : ∀ q d' (k' : Nat), c0[m]? = some q → q.cands.head? = some (d', (k' : Int)) → q = p0 ∧ d' = d ∧ k' = kn := by
      intro q d' k' hq hd
      rw [hp0] at hq; cases hq
      rw [← hpc, hc] at hd
      simp at hd
      exact ⟨rfl, hd.1.symm, by omega⟩
    have linked : r.next = NEXT_NONE →
        BComp accept c0 n0 (m + 1) (c.set m { p with final := d, prev := kn }) (n.set kn { r with next := m }) := by
      intro hrn
      refine hB.keep ?_ ?_ (fun q hq h0 => (hno q hq h0).elim) ?_
      · intro i hi
        rw [List.getElem?_set, if_neg (fun x => hi x.symm)]
      · intro k' r' hr'
        by_cases hkk : kn = k'
        · subst hkk
          rw [hr] at hr'; cases hr'
          exact ⟨{ r with next := m }, by rw [List.getElem?_set]; simp [hkl], rfl, fun hne => absurd hrn hne⟩
        · exact ⟨r', by rw [List.getElem?_set, if_neg hkk]; exact hr', rfl, fun _ => rfl⟩
      · intro q d' k' hq hd
        obtain ⟨rfl, rfl, rfl⟩ := hhd q d' k' hq hd
        exact ⟨{ p with final := d', prev := k' }, { r with next := m }, by rw [List.getElem?_set]; simp [hm],
          by rw [List.getElem?_set]; simp [hkl], Or.inl ⟨rfl, rfl⟩⟩
    have kept : ((∃ r0, n0[kn]? = some r0 ∧ r0.next ≠ NEXT_NONE) ∨ (∃ j : Nat, j < m ∧ r.next = j) ∨
          (r.prev ≠ PREV_NONE ∧ accept m kn = .ok false)) → BComp accept c0 n0 (m + 1) c n := by
      intro hwhy
      refine hB.keep (fun _ _ => rfl) same (fun q hq h0 => (hno q hq h0).elim) ?_
      intro q d' k' hq hd
      obtain ⟨rfl, rfl, rfl⟩ := hhd q d' k' hq hd
      exact ⟨p, r, hp, hr, Or.inr ⟨hpp, hwhy⟩⟩
    have taken : r.next ≠ NEXT_NONE → (∃ r0, n0[kn]? = some r0 ∧ r0.next ≠ NEXT_NONE) ∨ (∃ j : Nat, j < m ∧ r.next = j) := by
      intro hne
      obtain ⟨r0, hr0⟩ : ∃ r0, n0[kn]? = some r0 := ⟨_, List.getElem?_eq_getElem (by rw [← h.nlen]; exact hkl)⟩
      obtain ⟨nx, q1, q2⟩ := h.nxt kn r0 hr0
      rw [hr] at q1
      have q1 := Option.some.inj q1
      rcases q2 with q2 | ⟨-, j, -, q3, q4, -⟩
      · exact Or.inl ⟨r0, hr0, by rw [← q2]; rw [q1] at hne; exact hne⟩
      · exact Or.inr ⟨j, q3, by rw [q1]; exact q4⟩
    split at hs
    · rename_i hcond
      obtain ⟨n1, hn1, hs⟩ := bind_ok hs
      cases hs
      rw [pySetI_nonneg hk0 hn1]
      exact linked hcond.2
    · rename_i hc1
      split at hs
      · rename_i hcond
        obtain ⟨b, hb, hs⟩ := bind_ok hs
        split at hs
        · obtain ⟨n1, hn1, hs⟩ := bind_ok hs
          cases hs
          rw [pySetI_nonneg hk0 hn1]
          exact linked hcond.2
        · rename_i hbf
          cases hs
          refine kept (Or.inr (Or.inr ⟨hcond.1, ?_⟩))
          rw [hb]; simp at hbf; rw [hbf]
      · rename_i hc2
        cases hs
        refine kept ?_
        have hne : r.next ≠ NEXT_NONE := by
          intro e
          by_cases hpn : r.prev = PREV_NONE
          · exact hc1 ⟨hpn, e⟩
          · exact hc2 ⟨hpn, e⟩
        rcases taken hne with h1 | h1
        · exact Or.inl h1
        · exact Or.inr (Or.inl h1)

theorem backLinkLoop_comp {accept : Nat → Int → Py Bool} {c0 n0 : List (Part P D)}
    (hk : ∀ p ∈ c0, ∀ x ∈ p.cands, 0 ≤ x.2) (j : Nat) :
    ∀ (m : Nat) (c n c' n' : List (Part P D)), BInv accept c0 n0 m c n → BComp accept c0 n0 m c n →
    backLinkLoop accept (List.range' m j) c n = .ok (c', n') → BComp accept c0 n0 (m + j) c' n' := by
  induction j with
  | zero =>
    intro m c n c' n' h hB hs
    cases hs; exact hB
  | succ j ih =>
    intro m c n c' n' h hB hs
    rw [List.range'_succ] at hs
    unfold backLinkLoop at hs
    obtain ⟨⟨c1, n1⟩, h1, hs⟩ := bind_ok hs
    have := ih (m + 1) c1 n1 c' n' (backLinkOne_step hk h h1) (backLinkOne_comp hk h hB h1) hs
    rw [show m + (j + 1) = m + 1 + j by omega]
    exact this

/-- C92: a backward step misses no link. Take a particle of the current frame that is linked to the later frame but not to
the earlier one, and the particles of the earlier frame that the search offers. If none of them is acceptable, the
particle gets no link. Otherwise it is linked to the best of them, with its decision value, if that one was not linked before
and (in case it has a path of its own) continues the path smoothly; the only exception is that a particle with a smaller
number has taken it in the same step. -/
theorem C92_backward_complete (g : Geo P J C I D) (hg : SearchSane g) (xz : P → Bool) (y : P → D)
    (b0 b1 b2 b3 b1' b2' : Frame P D I) (hc : ∀ p ∈ b1.parts, p.cands = [])
    (hv : ∀ q ∈ b2.parts, q.prev = PREV_NONE ∨ 0 ≤ q.prev)
    (hs : backStepFrames g xz y b0 b1 b2 b3 = .ok (b1', b2'))
    (i : Nat) (p r : Part P D) (hp : b1.parts[i]? = some p) (hn : 0 ≤ p.next) (hpv : p.prev = PREV_NONE)
    (hr : b0.parts[p.next.toNat]? = some r) (w : List Found)
    (hw : g.search (g.predict r.x p.x) (g.proj (g.predict r.x p.x)) b2.img = .ok w) :
    ∃ p', b1'.parts[i]? = some p' ∧
      ((∀ d k, ¬ BackOffered g r.x p.x (b2.parts.map Part.x) w d k) → p'.prev = PREV_NONE) ∧
      ∀ d k q, BackBest g r.x p.x (b2.parts.map Part.x) w d k → b2.parts[k]? = some q →
        (p'.prev = k ∧ p'.final = d) ∨
        (p'.prev = PREV_NONE ∧ (q.next ≠ NEXT_NONE ∨
          (∃ j q', j < i ∧ b2'.parts[k]? = some q' ∧ q'.next = (j : Int)) ∨
          (∃ q4, 0 ≤ q.prev ∧ b3.parts[q.prev.toNat]? = some q4 ∧ ¬ BackContinues g r.x p.x q.x q4.x))) := by
  unfold backStepFrames at hs
  obtain ⟨⟨c1, c2⟩, h1, hs⟩ := bind_ok hs
  simp only at hs
  obtain ⟨⟨c, n⟩, h2, hs⟩ := bind_ok hs
  cases hs
  rw [List.range_eq_range'] at h1
  obtain ⟨rfl, e2, e3, elen, e5⟩ := backSearchLoop_spec hg _ 0 _ _ _ _ (by simp) h1
  obtain ⟨cs, hcs, hex⟩ := backSearchLoop_exact hg _ 0 _ _ _ _ (by simp) h1 i p r w (by omega) hp hn hpv hr hw
  have hk : ∀ p ∈ c1.parts, ∀ x ∈ p.cands, 0 ≤ x.2 := by
    intro q hq x hx
    obtain ⟨j, hj⟩ := List.getElem?_of_mem hq
    have hlt := (List.getElem?_eq_some_iff.1 hj).1
    obtain ⟨p, hp⟩ : ∃ p, b1.parts[j]? = some p := ⟨_, List.getElem?_eq_getElem (by omega)⟩
    rcases (e5 j p hp).2 (by omega) with ⟨-, h⟩ | ⟨h3, h4, r, cs, h5, h6, h7⟩
    · rw [hj] at h; cases h
      rw [hc _ (List.mem_of_getElem? hp)] at hx
      simp at hx
    · rw [hj] at h6; cases h6
      obtain ⟨k, x3, h, -⟩ := h7 x hx
      omega
  have hk' : ∀ p ∈ c1.parts.map backPrelim, ∀ x ∈ p.cands, 0 ≤ x.2 := by
    intro p hp x hx
    rw [List.mem_map] at hp
    obtain ⟨q, hq, rfl⟩ := hp
    exact hk q hq x ((sortPairs_perm _).mem_iff.1 hx)
  unfold backLinkPhase at h2
  simp only at h2
  rw [List.length_map, List.range_eq_range'] at h2
  have hB := backLinkLoop_comp hk' _ 0 _ _ _ _ (BInv.start (backAccept g b0 c1 c2 b3) _ _)
    ⟨by intro h p hh; omega, by intro h p d k hh; omega⟩ h2
  rw [Nat.zero_add] at hB
  have hI := backLinkLoop_spec hk' _ 0 _ _ _ _ (BInv.start (backAccept g b0 c1 c2 b3) _ _) h2
  have hi : i < c1.parts.length := (List.getElem?_eq_some_iff.1 hcs).1
  have hpre : (c1.parts.map backPrelim)[i]? = some (backPrelim { p with cands := cs }) := by
    rw [List.getElem?_map, hcs]; rfl
  obtain ⟨pv, fin, f1, -, -⟩ := hI.cur i _ hpre
  refine ⟨_, f1, ?_, ?_⟩
  · intro hno
    have hcs0 : cs = [] := by
      rw [List.eq_nil_iff_forall_not_mem]
      intro x hx
      obtain ⟨k, -, h⟩ := (hex x).1 hx
      exact hno _ _ h
    subst hcs0
    have hsn : (backPrelim { p with cands := [] }).cands = [] := by
      have := (sortPairs_perm ([] : List (D × Int))).length_eq
      exact List.eq_nil_of_length_eq_zero this
    obtain ⟨p', q1, q2⟩ := hB.free i _ hi hpre hsn
    rw [f1] at q1
    have := Option.some.inj q1
    rw [this, q2]
    exact hpv
  · intro d k q hb hq
    have hmem : ((d, (k : Int)) : D × Int) ∈ cs := (hex _).2 ⟨k, rfl, hb.1⟩
    have hhead : (backPrelim { p with cands := cs }).cands.head? = some (d, (k : Int)) := by
      have hs := sortPairs_sorted cs
      have hpm := sortPairs_perm cs
      simp only [backPrelim]
      cases hl : sortPairs cs with
      | nil =>
        rw [hl] at hpm
        have := hpm.mem_iff.2 hmem
        simp at this
      | cons z zs =>
        rw [hl] at hs hpm
        have hz : z ∈ cs := hpm.mem_iff.1 (by simp)
        obtain ⟨kz, z1, z2⟩ := (hex z).1 hz
        have hzb := hb.2 _ _ z2
        have hzd : z = (d, (k : Int)) ∨ z.1 < d ∨ (z.1 = d ∧ z.2 ≤ k) := by
          have hd := hpm.mem_iff.2 hmem
          rw [List.mem_cons] at hd
          rcases hd with hd | hd
          · exact Or.inl hd.symm
          · exact Or.inr ((List.pairwise_cons.1 hs).1 _ hd)
        have : z = (d, (k : Int)) := by
          rcases hzd with h | h | h
          · exact h
          · rcases hzb with h' | h'
            · exact absurd h (not_lt_of_gt h')
            · exact absurd h (by rw [h'.1]; exact lt_irrefl _)
          · rcases hzb with h' | h'
            · exact absurd h' (by rw [h.1]; exact lt_irrefl _)
            · exact Prod.ext h.1 (by have := h'.2; have := h.2; simp only; omega)
        rw [this]; rfl
    obtain ⟨p', r', q1, q2, q3⟩ := hB.best i _ d k hi hpre hhead
    rw [f1] at q1
    have q1 := Option.some.inj q1
    rw [q1]
    refine q3.imp id (fun q3 => ⟨q3.1.trans hpv, ?_⟩)
    rcases q3.2 with ⟨r0, t1, t2⟩ | ⟨j, t1, t2⟩ | ⟨t1, t2⟩
    · rw [hq] at t1
      cases t1
      exact Or.inl t2
    · exact Or.inr (Or.inl ⟨j, r', t1, q2, t2⟩)
    · refine Or.inr (Or.inr ?_)
      obtain ⟨nx, u1, -⟩ := hI.nxt k q hq
      rw [q2] at u1
      have u1 := Option.some.inj u1
      have hqp : q.prev ≠ PREV_NONE := by rw [u1] at t1; exact t1
      have hq0 : 0 ≤ q.prev := (hv q (List.mem_of_getElem? hq)).resolve_left hqp
      unfold backAccept at t2
      obtain ⟨p1, v1, t2⟩ := bind_ok t2
      have v1 := pyGet_ok v1
      rw [hcs] at v1
      cases v1
      obtain ⟨r1, v2, t2⟩ := bind_ok t2
      have v2 := pyGetI_nonneg hn v2
      rw [hr] at v2
      cases v2
      obtain ⟨qq, v3, t2⟩ := bind_ok t2
      have v3 := pyGetI_nonneg (by omega) v3
      rw [Int.toNat_natCast, hq] at v3
      cases v3
      obtain ⟨q4, v5, t2⟩ := bind_ok t2
      have v5 := pyGetI_nonneg hq0 v5
      obtain ⟨⟨angle, acc⟩, v6, t2⟩ := bind_ok t2
      refine ⟨q4, hq0, v5, ?_⟩
      rintro ⟨angle', acc', w1, w2⟩
      rw [v6] at w1
      cases w1
      have : g.gate acc angle = true := by simpa [Geo.gate, Smooth] using w2
      rw [Except.ok.inj t2] at this
      cases this

end

/-- Both particles of the earlier frame are offered. -/
def bothGeo : Geo ℚ Unit Unit Unit ℚ := { demoGeo with search := fun _ _ _ => .ok [⟨1, 4⟩, ⟨0, 4⟩, ⟨-1, 0⟩] }

/-- Two particles at 11 that go to 12 in the later frame; earlier particles at 21/2 and 10. -/
def bothStep : Option (List (Int × ℚ) × List Int) :=
  match backStepFrames bothGeo (fun _ => true) id ⟨13, [⟨12, 0, NEXT_NONE, [], 0⟩, ⟨12, 1, NEXT_NONE, [], 0⟩], ()⟩
      ⟨12, [⟨11, PREV_NONE, 0, [], 0⟩, ⟨11, PREV_NONE, 1, [], 0⟩], ()⟩
      ⟨11, [⟨21 / 2, PREV_NONE, NEXT_NONE, [], 0⟩, ⟨10, PREV_NONE, NEXT_NONE, [], 0⟩], ()⟩ ⟨10, [], ()⟩ with
  | .ok (c, n) => some (c.parts.map (fun p => (p.prev, p.final)), n.parts.map Part.next)
  | .error _ => none

/-- The particle at 21/2 is the best for both; the first one takes it, the second one stays without a link (although 10 is
acceptable for it). -/
example : bothStep = some ([(0, 17 / 80), (-1, 0)], [0, -2]) := by decide +kernel

example : SearchSane bothGeo := by
  intro x v i w h f hf
  cases h
  simp only [List.mem_cons, List.not_mem_nil, or_false] at hf
  rcases hf with rfl | rfl | rfl <;> decide

example : BackOffered bothGeo 12 11 [21 / 2, 10] [⟨1, 4⟩, ⟨0, 4⟩, ⟨-1, 0⟩] (17 / 80) 0 ∧
    BackOffered bothGeo 12 11 [21 / 2, 10] [⟨1, 4⟩, ⟨0, 4⟩, ⟨-1, 0⟩] (1 / 4) 1 := by
  refine ⟨⟨⟨0, 4⟩, by decide, rfl, 21 / 2, rfl, by decide +kernel, 0, 1 / 2, ?_, ?_, ?_⟩,
    ⟨⟨1, 4⟩, by decide, rfl, 10, rfl, by decide +kernel, 0, 0, ?_, ?_, ?_⟩⟩
  all_goals (simp only [Smooth, bothGeo, demoGeo]; norm_num [abs_of_pos])

end Verif.Track
