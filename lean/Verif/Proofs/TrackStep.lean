/-
Helper lemmas: candidate search phase of a forward step, and the sequence schedules.
-/
import Verif.Proofs.Linking

set_option linter.unusedSectionVars false

namespace Verif.Track

/-- A sequence of `Except` binds that succeeded. -/
theorem bind_ok {α β : Type} {x : Py α} {f : α → Py β} {b : β} (h : (x >>= f) = .ok b) :
    ∃ a, x = .ok a ∧ f a = .ok b := by
  cases x with
  | error e => simp [bind, Except.bind] at h
  | ok a => exact ⟨a, rfl, h⟩

section
variable {P J C I D : Type} [Field D] [LinearOrder D]

/-- A particle as read from disk without links, or as added. -/
def Unlinked (p : Part P D) : Prop := p.prev = PREV_NONE ∧ p.next = NEXT_NONE

/-- `g.search` only reports correspondence numbers (-1 for the unused marker). -/
def SearchSane (g : Geo P J C I D) : Prop :=
  ∀ x v i w, g.search x v i = .ok w → ∀ f ∈ w, -1 ≤ f.ftnr

/-- `f'` is `f` with unlinked particles without candidates appended. -/
def Extends (f f' : Frame P D I) : Prop :=
  f'.no = f.no ∧ ∃ e, f'.parts = f.parts ++ e ∧ ∀ p ∈ e, Unlinked p ∧ p.cands = []

theorem Extends.refl (f : Frame P D I) : Extends f f := ⟨rfl, [], by simp, by simp⟩

theorem Extends.trans {f f' f'' : Frame P D I} (a : Extends f f') (b : Extends f' f'') :
    Extends f f'' := by
  obtain ⟨a0, e, a1, a2⟩ := a
  obtain ⟨b0, e', b1, b2⟩ := b
  refine ⟨b0.trans a0, e ++ e', by rw [b1, a1, List.append_assoc], ?_⟩
  intro p hp
  rcases List.mem_append.1 hp with h | h
  · exact a2 p h
  · exact b2 p h

theorem Extends.length {f f' : Frame P D I} (a : Extends f f') :
    f.parts.length ≤ f'.parts.length := by
  obtain ⟨-, e, a1, -⟩ := a
  rw [a1, List.length_append]; omega

theorem addParticle_ext {g : Geo P J C I D} {f f' : Frame P D I} {x : P} {c : C}
    (h : addParticle g f x c = .ok f') :
    Extends f f' ∧ f'.parts.length = f.parts.length + 1 := by
  unfold addParticle at h
  obtain ⟨img, -, h⟩ := bind_ok h
  cases h
  refine ⟨⟨rfl, _, rfl, ?_⟩, by simp⟩
  intro p hp
  simp only [List.mem_singleton] at hp
  subst hp
  exact ⟨⟨rfl, rfl⟩, rfl⟩

/-- `cur'` is `cur` with further candidates, all satisfying `Q`. -/
def More (Q : Int → Prop) (cur cur' : Part P D) : Prop :=
  ∃ l, cur' = { cur with cands := cur.cands ++ l } ∧ (∀ x ∈ l, Q x.2) ∧
    (cur.cands.length ≤ POSI → cur'.cands.length ≤ POSI)

theorem More.refl (Q : Int → Prop) (cur : Part P D) : More Q cur cur :=
  ⟨[], by simp, by simp, id⟩

theorem More.trans {Q : Int → Prop} {a b c : Part P D} (h1 : More Q a b) (h2 : More Q b c) :
    More Q a c := by
  obtain ⟨l, rfl, b1, b2⟩ := h1
  obtain ⟨l', rfl, c1, c2⟩ := h2
  refine ⟨l ++ l', by simp, ?_, fun h => c2 (b2 h)⟩
  intro x hx
  rcases List.mem_append.1 hx with h | h
  · exact b1 x h
  · exact c1 x h

theorem More.imp {Q Q' : Int → Prop} {a b : Part P D} (h : More Q a b) (hq : ∀ k, Q k → Q' k) :
    More Q' a b := by
  obtain ⟨l, h1, h2, h3⟩ := h
  exact ⟨l, h1, fun x hx => hq _ (h2 x hx), h3⟩

theorem register_more {Q : Int → Prop} {cur cur' : Part P D} {r : D} {k : Int}
    (h : cur.register r k = .ok cur') (hk : Q k) : More Q cur cur' := by
  unfold Part.register at h
  split_ifs at h with hl
  cases h
  refine ⟨[(r, k)], rfl, by simpa using hk, ?_⟩
  intro _
  rw [List.length_append]
  simpa using hl

theorem lookAhead_more {g : Geo P J C I D} {ctx : Ctx P} {b3 : Frame P D I} {Q : Int → Prop}
    (hQ : Q ctx.f.ftnr) : ∀ (w : List Found) (cur cur' : Part P D),
    lookAhead g ctx b3 w cur = .ok cur' → More Q cur cur' := by
  intro w
  induction w with
  | nil => intro cur cur' h; simp [lookAhead] at h
  | cons fn rest ih =>
    intro cur cur' h
    unfold lookAhead at h
    by_cases h1 : fn.ftnr = TR_UNUSED ∨ (b3.parts.length : Int) ≤ fn.ftnr
    · rw [if_pos h1] at h; cases h; exact More.refl _ _
    · rw [if_neg h1] at h
      obtain ⟨q, -, h⟩ := bind_ok h
      by_cases h2 : g.inBounds (g.sub q.x ctx.x3) = true
      · rw [if_pos h2] at h
        obtain ⟨⟨angle1, acc1⟩, -, h⟩ := bind_ok h
        simp only at h
        have key : ∀ z : D × D, (if g.gate ((z.2 + acc1) / 2) ((z.1 + angle1) / 2) = true then do
              let cur' ← cur.register (g.rr ((g.dist ctx.x1 ctx.x3 + g.dist q.x ctx.x3) / 2)
                ((z.2 + acc1) / 2) ((z.1 + angle1) / 2) (fn.freq + ctx.f.freq)) ctx.f.ftnr
              lookAhead g ctx b3 rest cur'
            else lookAhead g ctx b3 rest cur) = .ok cur' → More Q cur cur' := by
          intro z h
          split_ifs at h with h4
          · obtain ⟨cur1, h5, h⟩ := bind_ok h
            exact (register_more h5 hQ).trans (ih _ _ h)
          · exact ih _ _ h
        by_cases h3 : ctx.x0.isSome = true
        · rw [if_pos h3] at h
          obtain ⟨z, -, h⟩ := bind_ok h
          exact key _ h
        · rw [if_neg h3] at h
          exact key _ h
      · rw [if_neg h2] at h
        exact ih _ _ h

theorem tryNew_more {g : Geo P J C I D} {ctx : Ctx P} {cur cur' : Part P D}
    {b3 b3' : Frame P D I} {Q : Int → Prop} (hQ : Q ctx.f.ftnr)
    (h : tryNew g ctx cur b3 = .ok (cur', b3')) : More Q cur cur' ∧ Extends b3 b3' := by
  unfold tryNew at h
  obtain ⟨⟨quali, v2, philf⟩, -, h⟩ := bind_ok h
  have base : (.ok (cur, b3) : Py (Part P D × Frame P D I)) = .ok (cur', b3') →
      More Q cur cur' ∧ Extends b3 b3' := by
    intro h; cases h; exact ⟨More.refl _ _, Extends.refl _⟩
  by_cases h1 : quali ≥ 2
  swap
  · simp only [if_neg h1] at h; exact base h
  simp only [if_pos h1] at h
  obtain ⟨x4, -, h⟩ := bind_ok h
  by_cases h2 : g.inVolume x4 = true ∧ g.inBounds (g.sub ctx.x3 x4) = true
  swap
  · rw [if_neg h2] at h; exact base h
  rw [if_pos h2] at h
  obtain ⟨⟨angle, acc⟩, -, h⟩ := bind_ok h
  by_cases h3 : g.gate acc angle = true
  swap
  · simp only [if_neg h3] at h; exact base h
  simp only [if_pos h3] at h
  obtain ⟨cur1, h5, h⟩ := bind_ok h
  by_cases h4 : g.add = true
  · rw [if_pos h4] at h
    obtain ⟨b, h6, h⟩ := bind_ok h
    cases h
    exact ⟨register_more h5 hQ, (addParticle_ext h6).1⟩
  · rw [if_neg h4] at h
    cases h
    exact ⟨register_more h5 hQ, Extends.refl _⟩

theorem tryPlain_more {g : Geo P J C I D} {ctx : Ctx P} {cur cur' : Part P D} {Q : Int → Prop}
    (hQ : Q ctx.f.ftnr) (h : tryPlain g ctx cur = .ok cur') : More Q cur cur' := by
  unfold tryPlain at h
  split at h
  · split_ifs at h with h1 h2
    · obtain ⟨⟨angle, acc⟩, -, h⟩ := bind_ok h
      simp only at h
      split_ifs at h with h3
      · exact register_more h hQ
      · cases h; exact More.refl _ _
    · cases h; exact More.refl _ _
    · cases h; exact More.refl _ _
  · cases h; exact More.refl _ _

theorem candOne_more {g : Geo P J C I D} {x0 : Option P} {x1 x2 : P} {f : Found} {r : Part P D}
    {cur : Part P D} {b3 : Frame P D I} {s : Part P D × Frame P D I} {Q : Int → Prop}
    (hQ : Q f.ftnr) (h : candOne g x0 x1 x2 f r cur b3 = .ok s) :
    More Q cur s.1 ∧ Extends b3 s.2 := by
  unfold candOne at h
  obtain ⟨wn, -, h⟩ := bind_ok h
  have key : ∀ cur1, More Q cur cur1 →
      (do
        let s ← tryNew g ⟨x0, x1, x2, r.x, g.ahead x0 x1 r.x, f⟩ cur1 b3
        let cur3 ← tryPlain g ⟨x0, x1, x2, r.x, g.ahead x0 x1 r.x, f⟩ s.1
        .ok (cur3, s.2)) = .ok s → More Q cur s.1 ∧ Extends b3 s.2 := by
    intro cur1 hm h
    obtain ⟨⟨cur2, b3''⟩, h2, h⟩ := bind_ok h
    obtain ⟨cur3, h3, h⟩ := bind_ok h
    cases h
    obtain ⟨a1, a2⟩ := tryNew_more (Q := Q) (by exact hQ) h2
    have a3 := tryPlain_more (Q := Q) (by exact hQ) h3
    exact ⟨(hm.trans a1).trans a3, a2⟩
  by_cases h2 : wn.length > 1
  · rw [if_pos h2] at h
    obtain ⟨cur1, h3, h⟩ := bind_ok h
    exact key cur1 (lookAhead_more (Q := Q) (by exact hQ) _ _ _ h3) h
  · rw [if_neg h2] at h
    exact key cur (More.refl _ _) h

theorem candLoop_more {g : Geo P J C I D} {x0 : Option P} {x1 x2 : P} {b2 : Frame P D I} :
    ∀ (w : List Found) (cur : Part P D) (b3 : Frame P D I) (s : Part P D × Frame P D I),
    (∀ f ∈ w, -1 ≤ f.ftnr) →
    candLoop g x0 x1 x2 b2 w cur b3 = .ok s →
    More (fun k => 0 ≤ k ∧ k < b2.parts.length) cur s.1 ∧ Extends b3 s.2 := by
  intro w
  induction w with
  | nil => intro cur b3 s _ h; simp [candLoop] at h
  | cons f rest ih =>
    intro cur b3 s hw h
    unfold candLoop at h
    by_cases h1 : f.ftnr = TR_UNUSED ∨ (b2.parts.length : Int) ≤ f.ftnr
    · rw [if_pos h1] at h; cases h; exact ⟨More.refl _ _, Extends.refl _⟩
    · rw [if_neg h1] at h
      have hf := hw f (by simp)
      have hQ : 0 ≤ f.ftnr ∧ f.ftnr < b2.parts.length := by
        simp only [TR_UNUSED, not_or, not_le] at h1
        exact ⟨by omega, h1.2⟩
      obtain ⟨r, -, h⟩ := bind_ok h
      obtain ⟨s', h2, h⟩ := bind_ok h
      obtain ⟨a1, a2⟩ := candOne_more (Q := fun k => 0 ≤ k ∧ k < b2.parts.length) (by exact hQ) h2
      obtain ⟨a3, a4⟩ := ih _ _ _ (fun f hf => hw f (by simp [hf])) h
      exact ⟨a1.trans a3, a2.trans a4⟩

theorem tryAdd_more {g : Geo P J C I D} {x0 : Option P} {x1 x2 : P} {cur cur' : Part P D}
    {b2 b2' : Frame P D I} (h : tryAdd g x0 x1 x2 cur b2 = .ok (cur', b2')) :
    More (fun k => 0 ≤ k ∧ k < b2'.parts.length) cur cur' ∧ Extends b2 b2' := by
  have base : (.ok (cur, b2) : Py (Part P D × Frame P D I)) = .ok (cur', b2') →
      More (fun k => 0 ≤ k ∧ k < b2'.parts.length) cur cur' ∧ Extends b2 b2' := by
    intro h; cases h; exact ⟨More.refl _ _, Extends.refl _⟩
  cases x0 with
  | none => exact base h
  | some x0 =>
    unfold tryAdd at h
    simp only at h
    by_cases h0 : g.add = true ∧ cur.cands = []
    swap
    · rw [if_neg h0] at h; exact base h
    rw [if_pos h0] at h
    obtain ⟨⟨quali, v2, philf⟩, -, h⟩ := bind_ok h
    by_cases h1 : quali ≥ 2
    swap
    · simp only [if_neg h1] at h; exact base h
    simp only [if_pos h1] at h
    obtain ⟨x3, -, h⟩ := bind_ok h
    by_cases h2 : g.inVolume x3 = true ∧ g.inBounds (g.sub x2 x3) = true
    swap
    · rw [if_neg h2] at h; exact base h
    rw [if_pos h2] at h
    obtain ⟨⟨angle, acc⟩, -, h⟩ := bind_ok h
    by_cases h3 : g.gate acc angle = true
    swap
    · simp only [if_neg h3] at h; exact base h
    simp only [if_pos h3] at h
    obtain ⟨cur1, h5, h⟩ := bind_ok h
    obtain ⟨b, h6, h⟩ := bind_ok h
    cases h
    obtain ⟨a, b⟩ := addParticle_ext h6
    exact ⟨register_more h5 ⟨by omega, by omega⟩, a⟩

theorem searchOne_spec {g : Geo P J C I D} (hg : SearchSane g) {b0 b1 b2 b3 b2' b3' : Frame P D I}
    {h : Nat} {cur : Part P D} (hs : searchOne g b0 b1 h b2 b3 = .ok (cur, b2', b3')) :
    Extends b2 b2' ∧ Extends b3 b3' ∧ ∃ p cs, b1.parts[h]? = some p ∧
      cur = { p with cands := cs } ∧ cs.length ≤ POSI ∧
      ∀ x ∈ cs, 0 ≤ x.2 ∧ x.2 < b2'.parts.length := by
  unfold searchOne at hs
  obtain ⟨p, hp, hs⟩ := bind_ok hs
  have hp' : b1.parts[h]? = some p := by
    unfold pyGet at hp; split at hp
    · cases hp; assumption
    · cases hp
  obtain ⟨x0, -, hs⟩ := bind_ok hs
  obtain ⟨w, hw, hs⟩ := bind_ok hs
  by_cases h1 : w.length = 1
  · rw [if_pos h1] at hs
    cases hs
    exact ⟨Extends.refl _, Extends.refl _, p, [], hp', rfl, by simp, by simp⟩
  · rw [if_neg h1] at hs
    obtain ⟨⟨cur1, b3a⟩, h2, hs⟩ := bind_ok hs
    obtain ⟨⟨cur2, b2a⟩, h3, hs⟩ := bind_ok hs
    cases hs
    obtain ⟨a1, a2⟩ := candLoop_more _ _ _ _ (hg _ _ _ _ hw) h2
    obtain ⟨a3, a4⟩ := tryAdd_more h3
    have hl := a4.length
    have a1' : More (fun k => 0 ≤ k ∧ k < b2a.parts.length) { p with cands := [] } cur1 :=
      a1.imp (fun k hk => ⟨hk.1, by omega⟩)
    obtain ⟨l, e1, e2, e3⟩ := a1'.trans a3
    refine ⟨a4, a2, p, l, hp', ?_, ?_, e2⟩
    · rw [e1]; simp
    · have := e3 (by simp)
      rw [e1] at this
      simpa using this

/-- The search phase over the particles `hs`: only candidates change in the current frame, and all
candidates registered are particles of the (possibly extended) next frame. -/
theorem searchLoop_spec {g : Geo P J C I D} (hg : SearchSane g) {b0 : Frame P D I} (k : Nat) :
    ∀ (m : Nat) (b1 b2 b3 b1' b2' b3' : Frame P D I), m + k = b1.parts.length →
    searchLoop g b0 (List.range' m k) b1 b2 b3 = .ok (b1', b2', b3') →
    Extends b2 b2' ∧ Extends b3 b3' ∧ b1'.no = b1.no ∧ b1'.parts.length = b1.parts.length ∧
    ∀ h p, b1.parts[h]? = some p → (h < m → b1'.parts[h]? = some p) ∧
      (m ≤ h → ∃ cs, b1'.parts[h]? = some { p with cands := cs } ∧ cs.length ≤ POSI ∧
        ∀ x ∈ cs, 0 ≤ x.2 ∧ x.2 < b2'.parts.length) := by
  induction k with
  | zero =>
    intro m b1 b2 b3 b1' b2' b3' hm hs
    simp only [List.range'_zero, searchLoop] at hs
    cases hs
    refine ⟨Extends.refl _, Extends.refl _, rfl, rfl, ?_⟩
    intro h p hp
    refine ⟨fun _ => hp, fun hh => ?_⟩
    have := (List.getElem?_eq_some_iff.1 hp).1
    omega
  | succ k ih =>
    intro m b1 b2 b3 b1' b2' b3' hm hs
    rw [List.range'_succ] at hs
    simp only [searchLoop] at hs
    obtain ⟨⟨cur, b2a, b3a⟩, h1, hs⟩ := bind_ok hs
    simp only at hs
    obtain ⟨e2, e3, p, cs, hp, rfl, hl, hk⟩ := searchOne_spec hg h1
    obtain ⟨f2, f3, f4, f5, f6⟩ := ih (m + 1) _ _ _ _ _ _ (by simp; omega) hs
    have hmlt : m < b1.parts.length := by omega
    refine ⟨e2.trans f2, e3.trans f3, f4, by simpa using f5, ?_⟩
    intro h q hq
    by_cases hhm : m = h
    · subst hhm
      rw [hp] at hq; cases Option.some.inj hq
      refine ⟨fun hh => by omega, fun _ => ⟨cs, ?_, hl, ?_⟩⟩
      · exact (f6 m { p with cands := cs } (by simp [hmlt])).1 (by omega)
      · intro x hx
        have := hk x hx
        have := f2.length
        exact ⟨by omega, by omega⟩
    · have hq' : ({ b1 with parts := b1.parts.set m { p with cands := cs } } : Frame P D I).parts[h]?
          = some q := by
        simp only; rw [List.getElem?_set_ne hhm]; exact hq
      obtain ⟨g1, g2⟩ := f6 h q hq'
      exact ⟨fun hh => g1 (by omega), fun hh => g2 (by omega)⟩

end
end Verif.Track
