/-
Helper lemmas: the backward linking phase and the backward schedule.
-/
import Verif.Proofs.Run

set_option linter.unusedSectionVars false

namespace Verif.Track
open Verif.Track.Spec

section
variable {P D : Type} [LinearOrder D]

theorem pyGetI_nonneg {α : Type} {xs : List α} {k : Int} (h0 : 0 ≤ k) {x : α}
    (h : pyGetI xs k = .ok x) : xs[k.toNat]? = some x := by
  unfold pyGetI at h
  rw [if_pos h0] at h
  unfold pyGet at h
  split at h
  · cases h; assumption
  · cases h

theorem pySetI_nonneg {α : Type} {xs ys : List α} {k : Int} (h0 : 0 ≤ k) {v : α}
    (h : pySetI xs k v = .ok ys) : ys = xs.set k.toNat v := by
  unfold pySetI at h
  rw [if_pos h0] at h
  split at h
  · cases h; rfl
  · cases h

theorem pyGet_ok {α : Type} {xs : List α} {k : Nat} {x : α}
    (h : pyGet xs k = .ok x) : xs[k]? = some x := by
  unfold pyGet at h
  split at h
  · cases h; assumption
  · cases h

/-- State of the backward linking loop before particle `m`. -/
structure BInv (accept : Nat → Int → Py Bool) (c0 n0 : List (Part P D)) (m : Nat) (c n : List (Part P D)) : Prop where
  clen : c.length = c0.length
  nlen : n.length = n0.length
  cur : ∀ h p, c0[h]? = some p → ∃ (pv : Int) (fin : D), c[h]? = some { p with prev := pv, final := fin } ∧
    (m ≤ h → pv = p.prev ∧ fin = p.final) ∧
    (pv = p.prev ∨ ∃ (k : Nat) (d : D) (q : Part P D), pv = k ∧ p.cands.head? = some (d, (k : Int)) ∧
      n0[k]? = some q ∧ q.next = NEXT_NONE ∧ n[k]? = some { q with next := h } ∧ fin = d ∧
      (q.prev = PREV_NONE ∨ accept h k = .ok true))
  nxt : ∀ (k : Nat) (q : Part P D), n0[k]? = some q → ∃ nx : Int, n[k]? = some { q with next := nx } ∧
    (nx = q.next ∨ (q.next = NEXT_NONE ∧ ∃ (h : Nat) (p : Part P D), h < m ∧ nx = h ∧
      c[h]? = some p ∧ p.prev = k ∧ p.cands ≠ []))

theorem BInv.start (accept : Nat → Int → Py Bool) (c n : List (Part P D)) : BInv accept c n 0 c n :=
  ⟨rfl, rfl, fun _ p h => ⟨p.prev, p.final, h, fun _ => ⟨rfl, rfl⟩, Or.inl rfl⟩,
    fun _ q h => ⟨q.next, h, Or.inl rfl⟩⟩

theorem BInv.skip {accept : Nat → Int → Py Bool} {c0 n0 c n : List (Part P D)} {m : Nat} (h : BInv accept c0 n0 m c n) :
    BInv accept c0 n0 (m + 1) c n := by
  refine ⟨h.clen, h.nlen, ?_, ?_⟩
  · intro i p hp
    obtain ⟨pv, fin, a, b, e⟩ := h.cur i p hp
    exact ⟨pv, fin, a, fun hh => b (by omega), e⟩
  · intro k q hq
    obtain ⟨nx, a, b⟩ := h.nxt k q hq
    refine ⟨nx, a, b.imp id ?_⟩
    rintro ⟨b0, i, p, b1, b2⟩
    exact ⟨b0, i, p, by omega, b2⟩

theorem BInv.link {accept : Nat → Int → Py Bool} {c0 n0 c n : List (Part P D)} {m k : Nat} {d : D} {p r : Part P D}
    {rest : List (D × Int)} (h : BInv accept c0 n0 m c n) (hp : c[m]? = some p)
    (hc : p.cands = (d, (k : Int)) :: rest) (hr : n[k]? = some r) (hrn : r.next = NEXT_NONE)
    (hacc : r.prev = PREV_NONE ∨ accept m k = .ok true) :
    BInv accept c0 n0 (m + 1) (c.set m { p with final := d, prev := k }) (n.set k { r with next := m }) := by
  have hm : m < c.length := (List.getElem?_eq_some_iff.1 hp).1
  have hk : k < n.length := (List.getElem?_eq_some_iff.1 hr).1
  obtain ⟨q, hq⟩ : ∃ q, n0[k]? = some q := ⟨_, List.getElem?_eq_getElem (by rw [← h.nlen]; exact hk)⟩
  obtain ⟨nx, q1, q2⟩ := h.nxt k q hq
  rw [hr] at q1
  have q1 := Option.some.inj q1
  subst q1
  simp only at hrn
  have hqn : q.next = NEXT_NONE := by
    rcases q2 with q2 | ⟨q2, -⟩
    · rw [← q2]; exact hrn
    · exact q2
  refine ⟨by simp [h.clen], by simp [h.nlen], ?_, ?_⟩
  · intro i p0 hp0
    obtain ⟨pv, fin, a, b, e⟩ := h.cur i p0 hp0
    by_cases him : i = m
    · subst him
      rw [hp] at a
      have a := Option.some.inj a
      subst a
      refine ⟨k, d, by rw [List.getElem?_set]; simp [hm], fun hh => by omega, Or.inr ?_⟩
      refine ⟨k, d, q, rfl, ?_, hq, hqn, ?_, rfl, hacc⟩
      · simp only at hc; rw [hc]; rfl
      · rw [List.getElem?_set]; simp [hk]
    · refine ⟨pv, fin, by rw [List.getElem?_set, if_neg (fun x => him x.symm)]; exact a,
        fun hh => b (by omega), e.imp id ?_⟩
      rintro ⟨k', d', q', e1, e2, e3, e4, e5, e6⟩
      refine ⟨k', d', q', e1, e2, e3, e4, ?_, e6⟩
      have hkk : k ≠ k' := by
        intro x; subst x
        rw [hr] at e5
        have := congrArg Part.next (Option.some.inj e5)
        simp only [hrn, NEXT_NONE] at this
        omega
      rw [List.getElem?_set, if_neg hkk]; exact e5
  · intro k' q' hq'
    by_cases hkk : k' = k
    · subst hkk
      rw [hq] at hq'
      cases hq'
      refine ⟨m, by rw [List.getElem?_set]; simp [hk], Or.inr ⟨hqn, m, _, by omega, rfl,
        by rw [List.getElem?_set]; simp [hm]; rfl, rfl, ?_⟩⟩
      simp [hc]
    · obtain ⟨nx', a, b⟩ := h.nxt k' q' hq'
      refine ⟨nx', by rw [List.getElem?_set, if_neg (fun x => hkk x.symm)]; exact a, b.imp id ?_⟩
      rintro ⟨b0, i, pp, b1, b2, b3, b4, b5⟩
      refine ⟨b0, i, pp, by omega, b2, ?_, b4, b5⟩
      rw [List.getElem?_set, if_neg (by omega)]; exact b3

theorem backLinkOne_step {accept : Nat → Int → Py Bool} {c0 n0 c n c' n' : List (Part P D)} {m : Nat}
    (hk : ∀ p ∈ c0, ∀ x ∈ p.cands, 0 ≤ x.2)
    (h : BInv accept c0 n0 m c n) (hs : backLinkOne accept m c n = .ok (c', n')) :
    BInv accept c0 n0 (m + 1) c' n' := by
  unfold backLinkOne at hs
  obtain ⟨p, hp, hs⟩ := bind_ok hs
  have hp := pyGet_ok hp
  split at hs
  · cases hs; exact h.skip
  · rename_i d k rest hc
    obtain ⟨r, hr, hs⟩ := bind_ok hs
    have hk0 : 0 ≤ k := by
      have hm : m < c0.length := by rw [← h.clen]; exact (List.getElem?_eq_some_iff.1 hp).1
      obtain ⟨p0, hp0⟩ : ∃ p0, c0[m]? = some p0 := ⟨_, List.getElem?_eq_getElem hm⟩
      obtain ⟨pv, fin, a, -⟩ := h.cur m p0 hp0
      rw [hp] at a
      have a := Option.some.inj a
      subst a
      simp only at hc
      exact hk p0 (List.mem_of_getElem? hp0) (d, k) (by rw [hc]; simp)
    have hr := pyGetI_nonneg hk0 hr
    obtain ⟨kn, rfl⟩ := Int.eq_ofNat_of_zero_le hk0
    simp only [Int.toNat_natCast] at hr
    split at hs
    · rename_i hcond
      obtain ⟨n1, hn1, hs⟩ := bind_ok hs
      cases hs
      rw [pySetI_nonneg hk0 hn1]
      exact h.link hp hc hr hcond.2 (Or.inl hcond.1)
    · split at hs
      · rename_i hcond
        obtain ⟨b, hb, hs⟩ := bind_ok hs
        split at hs
        · rename_i hbt
          obtain ⟨n1, hn1, hs⟩ := bind_ok hs
          cases hs
          rw [pySetI_nonneg hk0 hn1]
          exact h.link hp hc hr hcond.2 (Or.inr (by rw [hb, hbt]))
        · cases hs; exact h.skip
      · cases hs; exact h.skip

theorem backLinkLoop_spec {accept : Nat → Int → Py Bool} {c0 n0 : List (Part P D)}
    (hk : ∀ p ∈ c0, ∀ x ∈ p.cands, 0 ≤ x.2) (j : Nat) :
    ∀ (m : Nat) (c n c' n' : List (Part P D)), BInv accept c0 n0 m c n →
    backLinkLoop accept (List.range' m j) c n = .ok (c', n') → BInv accept c0 n0 (m + j) c' n' := by
  induction j with
  | zero =>
    intro m c n c' n' h hs
    cases hs; exact h
  | succ j ih =>
    intro m c n c' n' h hs
    rw [List.range'_succ] at hs
    unfold backLinkLoop at hs
    obtain ⟨⟨c1, n1⟩, h1, hs⟩ := bind_ok hs
    have := ih (m + 1) c1 n1 c' n' (backLinkOne_step hk h h1) hs
    rw [show m + (j + 1) = m + 1 + j by omega]
    exact this

theorem backLinkPhase_spec {accept : Nat → Int → Py Bool} {c n c' n' : List (Part P D)}
    (hk : ∀ p ∈ c, ∀ x ∈ p.cands, 0 ≤ x.2)
    (hs : backLinkPhase accept c n = .ok (c', n')) :
    BInv accept (c.map backPrelim) n c.length c' n' := by
  unfold backLinkPhase at hs
  simp only at hs
  rw [List.length_map, List.range_eq_range'] at hs
  have := backLinkLoop_spec (c0 := c.map backPrelim) (n0 := n) ?_ c.length 0 _ _ _ _ (BInv.start _ _ _) hs
  · simpa using this
  · intro p hp x hx
    rw [List.mem_map] at hp
    obtain ⟨q, hq, rfl⟩ := hp
    exact hk q hq x ((sortPairs_perm _).mem_iff.1 hx)

end

/-! ### Backward schedule -/

section
variable {F : Type}

/-- One backward step, spelled out. -/
theorem backStep_ok {disk : Int → F} {process : List F → Py (List F)} {first s : Int}
    {r r' : Run F} (h : backStep disk process first s r = .ok r')
    (hp : ∀ b b', process b = .ok b' → b'.length = b.length) (hl : r.buf.length = 4) :
    ∃ a b c d, process r.buf = .ok [a, b, c, d] ∧
      r' = ⟨[b, c, d, if s > first + 2 then disk (s - 3) else a],
        r.log ++ [.step s r.buf, .write s b] ++ if s > first + 2 then [.read (s - 3)] else []⟩ := by
  unfold backStep at h
  obtain ⟨buf, h1, h⟩ := bind_ok h
  have hb := hp _ _ h1
  rw [hl] at hb
  match buf, hb with
  | [a, b, c, d], _ =>
    obtain ⟨r2, h2, h⟩ := bind_ok h
    have e : r2 = ⟨[b, c, d, a], r.log ++ [.step s r.buf] ++ [.write s b]⟩ := by
      simp [writeFromStart, Run.next, fbNext, pyGet, bind, Except.bind] at h2
      rw [← h2]; simp
    subst e
    refine ⟨a, b, c, d, h1, ?_⟩
    cases h
    split_ifs <;> simp [readAtEnd]

/-- State before the backward step `last - 1 - i`; `first = last - L`. -/
structure RInv (no : F → Int) (last : Int) (L i : Nat) (r : Run F) : Prop where
  buf : ∃ a b c d, r.buf = [a, b, c, d] ∧ no b = last - 1 - i ∧
    (i + 2 ≤ max L 3 → no c = last - 2 - i) ∧ (i + 3 ≤ max L 3 → no d = last - 3 - i)
  writes : (writesOf r.log).map (fun w => (w.1, no w.2)) =
    (List.range i).map (fun (j : Nat) => (last - 1 - (j : Int), last - 1 - (j : Int)))

theorem RInv.step {no : F → Int} {disk : Int → F} {process : List F → Py (List F)} {last : Int}
    {L i : Nat} {r r' : Run F} (hd : ∀ n, no (disk n) = n)
    (hp : ∀ b b', process b = .ok b' → b'.map no = b.map no) (hi : i + 1 < L)
    (hI : RInv no last L i r)
    (h : backStep disk process (last - L) (last - 1 - i) r = .ok r') :
    RInv no last L (i + 1) r' := by
  obtain ⟨⟨a, b, c, d, hb, nb, nc, nd⟩, hw⟩ := hI
  have hpl : ∀ b b', process b = .ok b' → b'.length = b.length := by
    intro b b' hbb
    have := congrArg List.length (hp b b' hbb)
    simpa using this
  obtain ⟨a', b', c', d', h1, rfl⟩ := backStep_ok h hpl (by rw [hb]; rfl)
  have hno := hp _ _ h1
  rw [hb] at hno
  simp only [List.map_cons, List.map_nil, List.cons.injEq, and_true] at hno
  obtain ⟨n0, n1, n2, n3⟩ := hno
  have hcond : (last - 1 - (i : Int) > last - L + 2) ↔ i + 3 < L := by omega
  refine ⟨⟨b', c', d', _, rfl, by rw [n2, nc (by omega)]; push_cast; ring, ?_, ?_⟩, ?_⟩
  · intro hh
    rw [n3, nd (by omega)]; push_cast; ring
  · intro hh
    rw [if_pos (hcond.2 (by omega)), hd]; push_cast; ring
  · have : writesOf (if last - 1 - (i : Int) > last - L + 2 then
        [Ev.read (F := F) (last - 1 - i - 3)] else []) = [] := by split_ifs <;> rfl
    simp only [writesOf_append, List.map_append, hw, this, List.range_succ]
    simp [writesOf, n1, nb]

theorem RInv.steps_all {no : F → Int} {disk : Int → F} {process : List F → Py (List F)} {last : Int}
    {L : Nat} (hd : ∀ n, no (disk n) = n)
    (hp : ∀ b b', process b = .ok b' → b'.map no = b.map no) (k : Nat) :
    ∀ i r r', i + k + 1 = L → RInv no last L i r →
    backSteps disk process (last - L) k (last - 1 - i) r = .ok r' → RInv no last L (L - 1) r' := by
  induction k with
  | zero =>
    intro i r r' hi hI h
    cases h
    have : i = L - 1 := by omega
    subst this; exact hI
  | succ k ih =>
    intro i r r' hi hI h
    unfold backSteps at h
    obtain ⟨r1, h1, h⟩ := bind_ok h
    have := RInv.step hd hp (by omega) hI h1
    refine ih (i + 1) r1 r' (by omega) this ?_
    rw [← h]; congr 1; push_cast; ring

/-- File number and content number of every write of a backward run over `L ≥ 2` intervals. -/
theorem backRun_schedule {no : F → Int} {disk : Int → F} {process : List F → Py (List F)}
    {last : Int} {L : Nat} {a b c d : F} {r : Run F} (hL : 2 ≤ L) (hd : ∀ n, no (disk n) = n)
    (hp : ∀ b b', process b = .ok b' → b'.map no = b.map no)
    (h : backRun disk process (last - L) last [a, b, c, d] = .ok r) :
    (writesOf r.log).map (fun w => (w.1, no w.2)) =
      (List.range (L - 1)).map (fun (j : Nat) => (last - 1 - (j : Int), last - 1 - (j : Int))) ++
      [(last - L + 1, last - L)] := by
  unfold backRun at h
  obtain ⟨r1, h1, h⟩ := bind_ok h
  have hn : (last - 1 - (last - (L : Int))).toNat = L - 1 := by omega
  rw [hn, backStart_eq] at h1
  have h0 : RInv no last L 0 ⟨[disk last, disk (last - 1), disk (last - 2), disk (last - 3)],
        [.read last, .read (last - 1), .read (last - 2), .read (last - 3)]⟩ := by
    refine ⟨⟨_, _, _, _, rfl, ?_, ?_, ?_⟩, ?_⟩
    · rw [hd]; simp
    · intro _; rw [hd]; simp
    · intro _; rw [hd]; simp
    · simp [writesOf]
  have h2 := RInv.steps_all hd hp (L - 1) 0 _ r1 (by omega) h0 (by rw [← h1]; congr 1; simp)
  split_ifs at h with hz hq
  obtain ⟨⟨a', b', c', d', hb, nb, nc, nd⟩, hw⟩ := h2
  have e : r = ⟨[b', c', d', a'], r1.log ++ [.write (last - L + 1) b']⟩ := by
    simp [writeFromStart, Run.next, fbNext, pyGet, bind, Except.bind, hb] at h
    rw [← h]
  subst e
  · simp only [writesOf_append, List.map_append, hw]
    simp only [writesOf, List.map_cons, List.map_nil]
    rw [nb]
    congr 3
    omega
  · exact absurd (by omega) hq

end
end Verif.Track
