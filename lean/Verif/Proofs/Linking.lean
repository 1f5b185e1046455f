/-
Helper lemmas for the linking phase of a tracking step.
-/
import Verif.Model.TrackStep
import Mathlib.Tactic.Common

set_option linter.unusedSectionVars false

namespace Verif.Track

theorem pyGet_some {α : Type} {xs : List α} {i : Nat} {x : α} (h : xs[i]? = some x) :
    pyGet xs i = .ok x := by simp [pyGet, h]

theorem pyGetI_nat {α : Type} {xs : List α} {i : Nat} {x : α} (h : xs[i]? = some x) :
    pyGetI xs (i : Int) = .ok x := by
  simp [pyGetI, pyGet, h]

theorem pySetI_nat {α : Type} {xs : List α} {i : Nat} {v : α} (h : i < xs.length) :
    pySetI xs (i : Int) v = .ok (xs.set i v) := by
  simp [pySetI, h]

section
variable {P D : Type} [LinearOrder D]

/-- Particle `h` of the (sorted) current frame wants particle `k` of the next one with decision
value `d`. -/
def Wants (c0 : List (Part P D)) (h : Nat) (k : Int) (d : D) : Prop :=
  ∃ p, c0[h]? = some p ∧ p.cands ≠ [] ∧ p.next = k ∧ p.final = d

/-- `h` is the first best among the particles before `m` that want `k`. -/
def Wins (c0 : List (Part P D)) (m h : Nat) (k : Int) : Prop :=
  h < m ∧ ∃ d, Wants c0 h k d ∧ ∀ h' d', h' < m → Wants c0 h' k d' → d < d' ∨ (d = d' ∧ h ≤ h')

theorem Wants.unique {c0 : List (Part P D)} {h : Nat} {k k' : Int} {d d' : D}
    (a : Wants c0 h k d) (b : Wants c0 h k' d') : k = k' ∧ d = d' := by
  obtain ⟨p, a1, -, a2, a3⟩ := a
  obtain ⟨q, b1, -, b2, b3⟩ := b
  rw [a1] at b1
  cases Option.some.inj b1
  exact ⟨a2.symm.trans b2, a3.symm.trans b3⟩

theorem Wins.unique {c0 : List (Part P D)} {m h h' : Nat} {k : Int}
    (a : Wins c0 m h k) (b : Wins c0 m h' k) : h = h' := by
  obtain ⟨a1, d, a2, a3⟩ := a
  obtain ⟨b1, d', b2, b3⟩ := b
  rcases a3 h' d' b1 b2 with x | ⟨x, y⟩
  · rcases b3 h d a1 a2 with z | ⟨z, -⟩
    · exact absurd (lt_trans x z) (lt_irrefl _)
    · rw [z] at x; exact absurd x (lt_irrefl _)
  · rcases b3 h d a1 a2 with z | ⟨-, z⟩
    · rw [x] at z; exact absurd z (lt_irrefl _)
    · omega

/-- State of the linking loop after the first `m` particles. -/
structure LInv (c0 n0 : List (Part P D)) (m : Nat) (c n : List (Part P D)) : Prop where
  clen : c.length = c0.length
  nlen : n.length = n0.length
  cur : ∀ h p0, c0[h]? = some p0 → ∃ nx, c[h]? = some { p0 with next := nx } ∧
    (m ≤ h → nx = p0.next) ∧ (p0.cands = [] → nx = p0.next) ∧
    (h < m → p0.cands ≠ [] →
      (Wins c0 m h p0.next ∧ nx = p0.next) ∨ (¬ Wins c0 m h p0.next ∧ nx = NEXT_NONE))
  nxt : ∀ (k : Nat) q0, n0[k]? = some q0 → ∃ pv, n[k]? = some { q0 with prev := pv } ∧
    ((pv = PREV_NONE ∧ ∀ h d, h < m → ¬ Wants c0 h k d) ∨ ∃ h : Nat, pv = h ∧ Wins c0 m h k)

theorem LInv.start (c0 n0 : List (Part P D)) (hn : ∀ q ∈ n0, q.prev = PREV_NONE) :
    LInv c0 n0 0 c0 n0 := by
  refine ⟨rfl, rfl, ?_, ?_⟩
  · intro h p0 hp
    exact ⟨p0.next, hp, fun _ => rfl, fun _ => rfl, fun h => absurd h (by omega)⟩
  · intro k q0 hq
    refine ⟨q0.prev, hq, Or.inl ⟨hn q0 (List.mem_of_getElem? hq), ?_⟩⟩
    intro h d hh; omega

/-- One more particle without candidates, or one that does not want `k`, changes no winner. -/
theorem wins_succ_other {c0 : List (Part P D)} {m h : Nat} {k : Int}
    (hm : ∀ d, ¬ Wants c0 m k d) : Wins c0 (m + 1) h k ↔ Wins c0 m h k := by
  constructor
  · rintro ⟨a, d, b, e⟩
    have hne : h ≠ m := by rintro rfl; exact hm d b
    exact ⟨by omega, d, b, fun h' d' hh => e h' d' (by omega)⟩
  · rintro ⟨a, d, b, e⟩
    refine ⟨by omega, d, b, fun h' d' hh hw => ?_⟩
    rcases Nat.lt_or_ge h' m with h1 | h1
    · exact e h' d' h1 hw
    · have : h' = m := by omega
      subst this
      exact absurd hw (hm d')

/-- First particle wanting `k`. -/
theorem wins_first {c0 : List (Part P D)} {m : Nat} {k : Int} {d : D} (hw : Wants c0 m k d)
    (hno : ∀ h d, h < m → ¬ Wants c0 h k d) : Wins c0 (m + 1) m k := by
  refine ⟨by omega, d, hw, fun h' d' hh hw' => ?_⟩
  rcases Nat.lt_or_ge h' m with h1 | h1
  · exact absurd hw' (hno h' d' h1)
  · have : h' = m := by omega
    subst this
    exact Or.inr ⟨(hw.unique hw').2, le_refl _⟩

/-- A strictly better particle takes over. -/
theorem wins_steal {c0 : List (Part P D)} {m j : Nat} {k : Int} {d dj : D} (hw : Wants c0 m k d)
    (hj : Wins c0 m j k) (hwj : Wants c0 j k dj) (hlt : d < dj) : Wins c0 (m + 1) m k := by
  obtain ⟨-, dj', a, b⟩ := hj
  have := (a.unique hwj).2
  subst this
  refine ⟨by omega, d, hw, fun h' d' hh hw' => ?_⟩
  rcases Nat.lt_or_ge h' m with h1 | h1
  · rcases b h' d' h1 hw' with h2 | ⟨h2, -⟩
    · exact Or.inl (lt_trans hlt h2)
    · exact Or.inl (h2 ▸ hlt)
  · have : h' = m := by omega
    subst this
    exact Or.inr ⟨(hw.unique hw').2, le_refl _⟩

/-- Otherwise the holder keeps it. -/
theorem wins_keep {c0 : List (Part P D)} {m j : Nat} {k : Int} {d dj : D} (hw : Wants c0 m k d)
    (hj : Wins c0 m j k) (hwj : Wants c0 j k dj) (hle : ¬ d < dj) : Wins c0 (m + 1) j k := by
  obtain ⟨hlt, dj', a, b⟩ := hj
  have := (a.unique hwj).2
  subst this
  refine ⟨by omega, _, a, fun h' d' hh hw' => ?_⟩
  rcases Nat.lt_or_ge h' m with h1 | h1
  · exact b h' d' h1 hw'
  · have : h' = m := by omega
    subst this
    have := (hw.unique hw').2
    subst this
    rcases lt_or_eq_of_le (not_lt.1 hle) with h2 | h2
    · exact Or.inl h2
    · exact Or.inr ⟨h2, by omega⟩

/-- Number of links among the first `m` particles. -/
def links (m : Nat) (c : List (Part P D)) : Nat :=
  (c.take m).countP (fun p => decide (p.next ≠ NEXT_NONE))

theorem links_set {c : List (Part P D)} {m j : Nat} {p : Part P D} (hp : p.next = NEXT_NONE) :
    links m (c.set j p) ≤ links m c := by
  unfold links
  rw [List.take_set]
  generalize c.take m = l
  induction l generalizing j with
  | nil => simp
  | cons x xs ih =>
    cases j with
    | zero =>
      simp only [List.set_cons_zero, List.countP_cons, hp]
      simp
    | succ j =>
      simp only [List.set_cons_succ, List.countP_cons]
      have := @ih j
      omega

theorem links_succ {c : List (Part P D)} {m : Nat} {p : Part P D} (hp : c[m]? = some p) :
    links (m + 1) c = links m c + if p.next ≠ NEXT_NONE then 1 else 0 := by
  unfold links
  rw [List.take_add_one, hp, List.countP_append]
  simp [List.countP_cons]

theorem linkOne_step {c0 n0 c n : List (Part P D)} {m : Nat} (hI : LInv c0 n0 m c n)
    (hm : m < c0.length)
    (hk : ∀ p ∈ c0, p.cands ≠ [] → 0 ≤ p.next ∧ p.next < n0.length) :
    ∃ c' n' b, linkOne m c n = .ok (c', n', b) ∧ LInv c0 n0 (m + 1) c' n' ∧
      links (m + 1) c' ≤ links m c + (if b then 1 else 0) ∧
      ((∀ k d h' d', Wants c0 m k d → h' < m → ¬ Wants c0 h' k d') →
        links (m + 1) c' = links m c + (if b then 1 else 0)) := by
  obtain ⟨p0, hp0⟩ : ∃ p0, c0[m]? = some p0 := ⟨_, List.getElem?_eq_getElem hm⟩
  obtain ⟨nx, hp, hnx, -, -⟩ := hI.cur m p0 hp0
  have := hnx (le_refl _)
  subst this
  have hp : c[m]? = some p0 := hp
  have hmc : m < c.length := by rw [hI.clen]; exact hm
  unfold linkOne
  simp only [pyGet_some hp, bind, Except.bind]
  by_cases hc : p0.cands = []
  · -- no candidates
    simp only [hc, ne_eq, not_true_eq_false, if_false]
    have hnw : ∀ k d, ¬ Wants c0 m k d := by
      rintro k d ⟨p, a, b, -⟩
      rw [hp0] at a; cases Option.some.inj a; exact b hc
    refine ⟨c, n, _, rfl, ⟨hI.clen, hI.nlen, ?_, ?_⟩, ?_, ?_⟩
    · intro h q hq
      obtain ⟨nx, a1, a2, a3, a4⟩ := hI.cur h q hq
      refine ⟨nx, a1, fun hh => a2 (by omega), a3, fun hh hqc => ?_⟩
      have hne : h ≠ m := by
        rintro rfl; rw [hp0] at hq; cases Option.some.inj hq; exact hqc hc
      rw [wins_succ_other (hnw _)]
      exact a4 (by omega) hqc
    · intro k q hq
      obtain ⟨pv, a1, a2⟩ := hI.nxt k q hq
      refine ⟨pv, a1, ?_⟩
      rcases a2 with ⟨b1, b2⟩ | ⟨h, b1, b2⟩
      · refine Or.inl ⟨b1, fun h d hh => ?_⟩
        rcases Nat.lt_or_ge h m with h1 | h1
        · exact b2 h d h1
        · have : h = m := by omega
          subst this; exact hnw _ _
      · exact Or.inr ⟨h, b1, (wins_succ_other (hnw _)).2 b2⟩
    · rw [links_succ hp]; simp
    · intro _; rw [links_succ hp]; simp
  · -- candidates
    obtain ⟨hk0, hk1⟩ := hk p0 (List.mem_of_getElem? hp0) hc
    obtain ⟨k, hkk⟩ : ∃ k : Nat, p0.next = k := ⟨p0.next.toNat, by omega⟩
    have hklt : k < n0.length := by omega
    have hw : Wants c0 m k p0.final := ⟨p0, hp0, hc, hkk, rfl⟩
    obtain ⟨q0, hq0⟩ : ∃ q0, n0[k]? = some q0 := ⟨_, List.getElem?_eq_getElem hklt⟩
    obtain ⟨pv, hq, hpv⟩ := hI.nxt k q0 hq0
    have hkn : k < n.length := by rw [hI.nlen]; exact hklt
    have hnn : p0.next ≠ NEXT_NONE := by rw [hkk]; simp only [NEXT_NONE]; omega
    have hother : ∀ k' : Int, k' ≠ k → ∀ d, ¬ Wants c0 m k' d := by
      intro k' hk' d hw'
      exact hk' (hw'.unique hw).1
    have hset : ∀ (k' : Nat) q, n0[k']? = some q → ∀ h : Nat, Wins c0 (m + 1) h k →
        ∃ pv, (n.set k { q0 with prev := (h : Int) })[k']? = some { q with prev := pv } ∧
        ((pv = PREV_NONE ∧ ∀ h d, h < m + 1 → ¬ Wants c0 h k' d) ∨
          ∃ h : Nat, pv = h ∧ Wins c0 (m + 1) h k') := by
      intro k' q hq' h hwin
      by_cases hkk' : k = k'
      · subst hkk'
        rw [hq0] at hq'; cases Option.some.inj hq'
        exact ⟨h, by rw [List.getElem?_set_self hkn], Or.inr ⟨h, rfl, hwin⟩⟩
      · obtain ⟨pv', a1, a2⟩ := hI.nxt k' q hq'
        refine ⟨pv', by rw [List.getElem?_set_ne hkk']; exact a1, ?_⟩
        have hoth := hother k' (by omega)
        rcases a2 with ⟨b1, b2⟩ | ⟨h', b1, b2⟩
        · refine Or.inl ⟨b1, fun h' d hh => ?_⟩
          rcases Nat.lt_or_ge h' m with h1 | h1
          · exact b2 h' d h1
          · have : h' = m := by omega
            subst this; exact hoth d
        · exact Or.inr ⟨h', b1, (wins_succ_other hoth).2 b2⟩
    simp only [ne_eq, hc, not_false_eq_true, if_true, hkk, pyGetI_nat hq]
    rcases hpv with ⟨rfl, hnone⟩ | ⟨j, rfl, hjw⟩
    · -- free
      have hwin := wins_first hw hnone
      simp only [if_true, pySetI_nat hkn]
      refine ⟨c, _, _, rfl, ⟨hI.clen, by simp [hI.nlen], ?_, fun k' q hq' => hset k' q hq' m hwin⟩,
        ?_, ?_⟩
      · intro h q hq'
        obtain ⟨nx, a1, a2, a3, a4⟩ := hI.cur h q hq'
        refine ⟨nx, a1, fun hh => a2 (by omega), a3, fun hh hqc => ?_⟩
        by_cases hhm : h = m
        · subst hhm
          rw [hp0] at hq'; cases Option.some.inj hq'
          exact Or.inl ⟨hkk ▸ hwin, a2 (le_refl _)⟩
        · by_cases hqn : q.next = k
          · exact absurd ⟨q, hq', hqc, hqn, rfl⟩ (hnone h q.final (by omega))
          · rw [wins_succ_other (hother _ hqn)]
            exact a4 (by omega) hqc
      · rw [links_succ hp]; simp [hnn, ← hkk]
      · intro _; rw [links_succ hp]; simp [hnn, ← hkk]
    · -- taken by j
      have hjlt : j < m := hjw.1
      obtain ⟨dj, hwj, -⟩ := hjw.2
      obtain ⟨pj, hpj, hpjc, hpjn, hpjd⟩ := id hwj
      obtain ⟨nxj, hcj, -, -, hcj4⟩ := hI.cur j pj hpj
      have hjc : j < c.length := by omega
      have hpvne : ¬ ((j : Int) = PREV_NONE) := by simp only [PREV_NONE]; omega
      simp only [if_neg hpvne, pyGetI_nat hcj, pySetI_nat hkn, pySetI_nat hjc]
      by_cases hlt : p0.final < pj.final
      · -- steal
        rw [if_pos hlt]
        have hwin := wins_steal hw hjw hwj (hpjd ▸ hlt)
        refine ⟨_, _, _, rfl, ⟨by simp [hI.clen], by simp [hI.nlen], ?_,
          fun k' q hq' => hset k' q hq' m hwin⟩, ?_, ?_⟩
        · intro h q hq'
          obtain ⟨nx, a1, a2, a3, a4⟩ := hI.cur h q hq'
          by_cases hhj : j = h
          · subst hhj
            rw [hpj] at hq'; cases Option.some.inj hq'
            refine ⟨NEXT_NONE, by rw [List.getElem?_set_self hjc], fun hh => by omega,
              fun hh => absurd hh hpjc, fun hh hqc => Or.inr ⟨?_, rfl⟩⟩
            rw [hpjn]
            intro hw'
            have := hw'.unique hwin
            omega
          · refine ⟨nx, by rw [List.getElem?_set_ne hhj]; exact a1, fun hh => a2 (by omega), a3,
              fun hh hqc => ?_⟩
            by_cases hhm : h = m
            · subst hhm
              rw [hp0] at hq'; cases Option.some.inj hq'
              exact Or.inl ⟨hkk ▸ hwin, a2 (le_refl _)⟩
            · by_cases hqn : q.next = k
              · right
                have hold := a4 (by omega) hqc
                rw [hqn] at hold ⊢
                rcases hold with ⟨x, -⟩ | ⟨-, x⟩
                · exact absurd (x.unique hjw).symm hhj
                · refine ⟨fun hw' => hhm (hw'.unique hwin), x⟩
              · rw [wins_succ_other (hother _ hqn)]
                exact a4 (by omega) hqc
        · have hp' : (c.set j { pj with next := NEXT_NONE })[m]? = some p0 := by
            rw [List.getElem?_set_ne (by omega)]; exact hp
          rw [links_succ hp']
          have := links_set (c := c) (m := m) (j := j) (p := { pj with next := NEXT_NONE }) rfl
          simp only [hkk, NEXT_NONE] at hnn this ⊢
          simp [hnn]
          exact this
        · intro hno
          exact absurd hwj (hno k p0.final j dj hw hjlt)
      · -- lose
        rw [if_neg (by simpa using hlt)]
        have hkeep := wins_keep hw hjw hwj (hpjd ▸ hlt)
        refine ⟨_, _, _, rfl, ⟨by simp [hI.clen], hI.nlen, ?_, ?_⟩, ?_, ?_⟩
        · intro h q hq'
          obtain ⟨nx, a1, a2, a3, a4⟩ := hI.cur h q hq'
          by_cases hhm : m = h
          · subst hhm
            rw [hp0] at hq'; cases Option.some.inj hq'
            refine ⟨NEXT_NONE, by rw [List.getElem?_set_self hmc], fun hh => by omega,
              fun hh => absurd hh hc, fun hh hqc => Or.inr ⟨?_, rfl⟩⟩
            rw [hkk]
            intro hw'
            have := hw'.unique hkeep
            omega
          · refine ⟨nx, by rw [List.getElem?_set_ne hhm]; exact a1, fun hh => a2 (by omega), a3,
              fun hh hqc => ?_⟩
            by_cases hqn : q.next = k
            · have hold := a4 (by omega) hqc
              rw [hqn] at hold ⊢
              rcases hold with ⟨x, y⟩ | ⟨x, y⟩
              · have := x.unique hjw
                subst this
                exact Or.inl ⟨hkeep, y⟩
              · refine Or.inr ⟨fun hw' => x ?_, y⟩
                rw [hw'.unique hkeep]; exact hjw
            · rw [wins_succ_other (hother _ hqn)]
              exact a4 (by omega) hqc
        · intro k' q hq'
          obtain ⟨pv', a1, a2⟩ := hI.nxt k' q hq'
          refine ⟨pv', a1, ?_⟩
          by_cases hkk' : k = k'
          · subst hkk'
            rw [hq] at a1
            have hpv' : (j : Int) = pv' := by
              have := Option.some.inj a1
              injection this
            exact Or.inr ⟨j, hpv'.symm, hkeep⟩
          · have hoth := hother k' (by omega)
            rcases a2 with ⟨b1, b2⟩ | ⟨h', b1, b2⟩
            · refine Or.inl ⟨b1, fun h' d hh => ?_⟩
              rcases Nat.lt_or_ge h' m with h1 | h1
              · exact b2 h' d h1
              · have : h' = m := by omega
                subst this; exact hoth d
            · exact Or.inr ⟨h', b1, (wins_succ_other hoth).2 b2⟩
        · have hp' : (c.set m { p0 with next := NEXT_NONE })[m]? =
              some { p0 with next := NEXT_NONE } := List.getElem?_set_self hmc
          rw [links_succ hp']
          have := links_set (c := c) (m := m) (j := m) (p := { p0 with next := NEXT_NONE }) rfl
          simpa using this
        · intro hno
          exact absurd hwj (hno k p0.final j dj hw hjlt)

theorem linkLoop_spec {c0 n0 : List (Part P D)}
    (hk : ∀ p ∈ c0, p.cands ≠ [] → 0 ≤ p.next ∧ p.next < n0.length) (j : Nat) :
    ∀ m c n t, m + j = c0.length → LInv c0 n0 m c n → links m c ≤ t →
    ∃ c' n' t', linkLoop (List.range' m j) c n t = .ok (c', n', t') ∧
      LInv c0 n0 c0.length c' n' ∧ links c0.length c' ≤ t' ∧
      ((∀ k h d h' d', Wants c0 h k d → h' < h → ¬ Wants c0 h' k d') → t = links m c →
        t' = links c0.length c') := by
  induction j with
  | zero =>
    intro m c n t hm hI ht
    have : m = c0.length := by omega
    subst this
    exact ⟨c, n, t, rfl, hI, ht, fun _ h => h⟩
  | succ j ih =>
    intro m c n t hm hI ht
    obtain ⟨c1, n1, b, h1, h2, h3, h4⟩ := linkOne_step hI (by omega) hk
    obtain ⟨c2, n2, t2, g1, g2, g3, g4⟩ := ih (m + 1) c1 n1 (t + if b then 1 else 0) (by omega) h2
      (by omega)
    refine ⟨c2, n2, t2, ?_, g2, g3, ?_⟩
    · rw [List.range'_succ]
      simp only [linkLoop, h1, bind, Except.bind]
      exact g1
    · intro hno ht
      exact g4 hno (by rw [h4 (fun k d h' d' hw hh => hno k m d h' d' hw hh), ht])

/-! ### Sorting of the candidates -/

theorem pairLe_total (a b : D × Int) : pairLe a b ∨ pairLe b a := by
  unfold pairLe
  rcases lt_trichotomy a.1 b.1 with h | h | h
  · exact Or.inl (Or.inl h)
  · rcases le_total a.2 b.2 with h' | h'
    · exact Or.inl (Or.inr ⟨h, h'⟩)
    · exact Or.inr (Or.inr ⟨h.symm, h'⟩)
  · exact Or.inr (Or.inl h)

theorem pairLe_trans {a b c : D × Int} (h1 : pairLe a b) (h2 : pairLe b c) : pairLe a c := by
  unfold pairLe at *
  rcases h1 with h1 | ⟨h1, h1'⟩ <;> rcases h2 with h2 | ⟨h2, h2'⟩
  · exact Or.inl (lt_trans h1 h2)
  · exact Or.inl (h2 ▸ h1)
  · exact Or.inl (h1 ▸ h2)
  · exact Or.inr ⟨h1.trans h2, le_trans h1' h2'⟩

theorem sortPairs_perm (l : List (D × Int)) : (sortPairs l).Perm l := List.perm_insertionSort _ l

theorem sortPairs_sorted (l : List (D × Int)) : (sortPairs l).Pairwise pairLe := by
  have : Std.Total (pairLe (D := D)) := ⟨pairLe_total⟩
  have : IsTrans (D × Int) pairLe := ⟨fun _ _ _ => pairLe_trans⟩
  exact List.pairwise_insertionSort _ l

theorem prelim_spec (p : Part P D) :
    (p.cands = [] ∧ prelim p = p) ∨
    (∃ d k, (d, k) ∈ p.cands ∧ (∀ x ∈ p.cands, d < x.1 ∨ (d = x.1 ∧ k ≤ x.2)) ∧
      prelim p = { p with cands := sortPairs p.cands, final := d, next := k } ∧
      (prelim p).cands ≠ []) := by
  unfold prelim
  have hperm := sortPairs_perm p.cands
  have hsort := sortPairs_sorted p.cands
  cases hs : sortPairs p.cands with
  | nil =>
    rw [hs] at hperm
    exact Or.inl ⟨hperm.symm.eq_nil, rfl⟩
  | cons a rest =>
    obtain ⟨d, k⟩ := a
    rw [hs] at hperm hsort
    refine Or.inr ⟨d, k, hperm.mem_iff.1 (by simp), ?_, rfl, by simp⟩
    intro x hx
    rcases List.mem_cons.1 (hperm.mem_iff.2 hx) with rfl | hx
    · exact Or.inr ⟨rfl, le_refl _⟩
    · exact (List.pairwise_cons.1 hsort).1 x hx

end
end Verif.Track
