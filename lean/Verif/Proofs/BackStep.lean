/-
Helper lemmas: the backward step.
-/
import Verif.Model.BackStep
import Verif.Spec.BackStep
import Verif.Proofs.Gates
import Verif.Props.Linking

set_option linter.unusedSectionVars false

namespace Verif.Track
open Verif.Track.Spec

section
variable {P J C I D : Type} [Field D] [LinearOrder D]

/-- What the backward search promises about a candidate. -/
def BackPromise (g : Geo P J C I D) (x0 x1 : P) (earlier : List P) (x : D × Int) : Prop :=
  ∃ (k : Nat) (x3 : P), x.2 = k ∧ earlier[k]? = some x3 ∧ BackReason g x0 x1 x3 x.1

theorem backCands_more {g : Geo P J C I D} {x0 x1 : P} {b2 : Frame P D I} :
    ∀ (w : List Found) (cur cur' : Part P D), (∀ f ∈ w, -1 ≤ f.ftnr) →
    backCands g x0 x1 (g.predict x0 x1) b2 w cur = .ok cur' → MoreP (BackPromise g x0 x1 b2.xs) cur cur' := by
  intro w
  induction w with
  | nil => intro cur cur' _ h; simp [backCands] at h
  | cons f rest ih =>
    intro cur cur' hw h
    have hw' : ∀ f ∈ rest, -1 ≤ f.ftnr := fun f hf => hw f (by simp [hf])
    unfold backCands at h
    by_cases h1 : f.ftnr = TR_UNUSED
    · rw [if_pos h1] at h; cases h; exact MoreP.refl _ _
    rw [if_neg h1] at h
    obtain ⟨r, hr, h⟩ := bind_ok h
    have h0 : 0 ≤ f.ftnr := by
      have := hw f (by simp)
      simp only [TR_UNUSED] at h1
      omega
    have hr := pyGetI_nonneg h0 hr
    by_cases h2 : g.inBounds (g.sub x1 r.x) = true
    swap
    · rw [if_neg h2] at h; exact ih _ _ hw' h
    rw [if_pos h2] at h
    obtain ⟨⟨angle, acc⟩, ha, h⟩ := bind_ok h
    simp only at h
    by_cases h3 : g.gate acc angle = true
    swap
    · rw [if_neg h3] at h; exact ih _ _ hw' h
    rw [if_pos h3] at h
    obtain ⟨cur1, h4, h⟩ := bind_ok h
    refine (register_moreP h4 ?_).trans (ih _ _ hw' h)
    refine ⟨f.ftnr.toNat, r.x, by simp; omega, by simp [Frame.xs, hr], h2, angle, acc, ha, gate_smooth h3, f.freq, rfl⟩

theorem backInVolume_false (xz : P → Bool) (y : P → D) (x : P) : backInVolume xz y x = false := by
  unfold backInVolume
  by_cases h : 0 < y x
  · simp [h, not_lt_of_gt h]
  · simp [h]

theorem backTryAdd_same {g : Geo P J C I D} {xz : P → Bool} {y : P → D} {x0 x1 x2 : P} {cur : Part P D}
    {b2 : Frame P D I} {s : Part P D × Frame P D I} (h : backTryAdd g xz y x0 x1 x2 cur b2 = .ok s) :
    s = (cur, b2) := by
  unfold backTryAdd at h
  by_cases h0 : g.add = true ∧ cur.cands = []
  swap
  · rw [if_neg h0] at h; cases h; rfl
  rw [if_pos h0] at h
  obtain ⟨⟨quali, v2, philf⟩, hass, h⟩ := bind_ok h
  by_cases h1 : quali ≥ 2
  swap
  · simp only [if_neg h1] at h; cases h; rfl
  simp only [if_pos h1] at h
  obtain ⟨x3, hx3, h⟩ := bind_ok h
  simp only [backInVolume_false] at h
  simp at h
  exact h.symm

/-- One iteration of the backward search. -/
theorem backSearchOne_spec {g : Geo P J C I D} (hg : SearchSane g) {xz : P → Bool} {y : P → D}
    {b0 b1 b2 b2' : Frame P D I} {h : Nat} {cur p : Part P D} (hp : b1.parts[h]? = some p)
    (hs : backSearchOne g xz y b0 b1 h b2 = .ok (cur, b2')) :
    b2' = b2 ∧ (((p.next < 0 ∨ p.prev ≠ -1) ∧ cur = p) ∨
      (0 ≤ p.next ∧ p.prev = -1 ∧ ∃ r cs, b0.parts[p.next.toNat]? = some r ∧ cur = { p with cands := cs } ∧
        ∀ x ∈ cs, BackPromise g r.x p.x b2.xs x)) := by
  unfold backSearchOne at hs
  obtain ⟨p', hp', hs⟩ := bind_ok hs
  rw [pyGet_some hp] at hp'
  cases hp'
  by_cases h1 : p.next < 0 ∨ p.prev ≠ -1
  · rw [if_pos h1] at hs
    cases hs
    exact ⟨rfl, Or.inl ⟨h1, rfl⟩⟩
  rw [if_neg h1] at hs
  simp only [not_or, not_lt, not_not] at h1
  obtain ⟨r, hr, hs⟩ := bind_ok hs
  have hr := pyGetI_nonneg h1.1 hr
  obtain ⟨w, hw, hs⟩ := bind_ok hs
  obtain ⟨cur1, hc, hs⟩ := bind_ok hs
  have := backTryAdd_same hs
  cases this
  obtain ⟨l, e1, e2⟩ := backCands_more _ _ _ (hg _ _ _ _ hw) hc
  refine ⟨rfl, Or.inr ⟨h1.1, h1.2, r, l, hr, by rw [e1]; simp, e2⟩⟩

/-- The backward search: nothing but lists of candidates changes. -/
theorem backSearchLoop_spec {g : Geo P J C I D} (hg : SearchSane g) {xz : P → Bool} {y : P → D}
    {b0 : Frame P D I} (k : Nat) :
    ∀ (m : Nat) (b1 b2 b1' b2' : Frame P D I), m + k = b1.parts.length →
    backSearchLoop g xz y b0 (List.range' m k) b1 b2 = .ok (b1', b2') →
    b2' = b2 ∧ b1'.no = b1.no ∧ b1'.img = b1.img ∧ b1'.parts.length = b1.parts.length ∧
    ∀ (h : Nat) (p : Part P D), b1.parts[h]? = some p → (h < m → b1'.parts[h]? = some p) ∧
      (m ≤ h → ((p.next < 0 ∨ p.prev ≠ -1) ∧ b1'.parts[h]? = some p) ∨
        (0 ≤ p.next ∧ p.prev = -1 ∧ ∃ r cs, b0.parts[p.next.toNat]? = some r ∧
          b1'.parts[h]? = some { p with cands := cs } ∧ ∀ x ∈ cs, BackPromise g r.x p.x b2.xs x)) := by
  induction k with
  | zero =>
    intro m b1 b2 b1' b2' hm hs
    cases hs
    refine ⟨rfl, rfl, rfl, rfl, fun h p hp => ⟨fun _ => hp, fun hh => ?_⟩⟩
    have := (List.getElem?_eq_some_iff.1 hp).1
    omega
  | succ k ih =>
    intro m b1 b2 b1' b2' hm hs
    rw [List.range'_succ] at hs
    simp only [backSearchLoop] at hs
    obtain ⟨⟨cur, b2a⟩, h1, hs'⟩ := bind_ok hs
    have hmlt : m < b1.parts.length := by omega
    obtain ⟨q, hq⟩ : ∃ q, b1.parts[m]? = some q := ⟨_, List.getElem?_eq_getElem hmlt⟩
    obtain ⟨rfl, h2⟩ := backSearchOne_spec hg hq h1
    obtain ⟨e1, e2, e3, e4, e5⟩ := ih (m + 1) _ _ _ _ (by simp; omega) hs'
    refine ⟨e1, e2, e3, by simpa using e4, ?_⟩
    intro h p hp
    by_cases hhm : m = h
    · subst hhm
      rw [hq] at hp
      cases hp
      refine ⟨fun hh => by omega, fun _ => ?_⟩
      have hc := (e5 m cur (by simp [hmlt])).1 (by omega)
      rcases h2 with ⟨h2, rfl⟩ | ⟨h2, h3, r, cs, h4, rfl, h5⟩
      · exact Or.inl ⟨h2, hc⟩
      · exact Or.inr ⟨h2, h3, r, cs, h4, hc, h5⟩
    · have := e5 h p (by simp only; rw [List.getElem?_set, if_neg hhm]; exact hp)
      exact ⟨fun hh => this.1 (by omega), fun hh => this.2 (by omega)⟩

theorem backBest {p : Part P D} {d : D} {k : Int} (hh : (backPrelim p).cands.head? = some (d, k)) :
    BestOf p d k := by
  have hs := sortPairs_sorted p.cands
  have hp := sortPairs_perm p.cands
  simp only [backPrelim] at hh
  cases hl : sortPairs p.cands with
  | nil => rw [hl] at hh; simp at hh
  | cons y ys =>
    rw [hl] at hh hs hp
    simp at hh
    subst hh
    refine ⟨hp.mem_iff.1 (by simp), ?_⟩
    intro x hx
    have hx := hp.mem_iff.2 hx
    rw [List.mem_cons] at hx
    rcases hx with rfl | hx
    · exact Or.inr ⟨rfl, le_refl _⟩
    · exact (List.pairwise_cons.1 hs).1 x hx

/-- What a backward step does. -/
theorem backStepFrames_spec {g : Geo P J C I D} (hg : SearchSane g) {xz : P → Bool} {y : P → D}
    {b0 b1 b2 b3 b1' b2' : Frame P D I} (hc : ∀ p ∈ b1.parts, p.cands = [])
    (hs : backStepFrames g xz y b0 b1 b2 b3 = .ok (b1', b2')) :
    b1'.no = b1.no ∧ b2'.no = b2.no ∧ b1'.img = b1.img ∧ b2'.img = b2.img ∧
    b1'.parts.length = b1.parts.length ∧ b2'.parts.length = b2.parts.length ∧
    (∀ (i : Nat) (p : Part P D), b1.parts[i]? = some p → ∃ p', b1'.parts[i]? = some p' ∧ p'.x = p.x ∧
      p'.next = p.next ∧ (p'.prev = p.prev ∨ ∃ (k : Nat) (q r : Part P D), p'.prev = k ∧ p.prev = PREV_NONE ∧
        0 ≤ p.next ∧ b0.parts[p.next.toNat]? = some r ∧ b2.parts[k]? = some q ∧ q.next = NEXT_NONE ∧
        b2'.parts[k]? = some { q with next := i } ∧ BackReason g r.x p.x q.x p'.final ∧
        (q.prev = PREV_NONE ∨ ∃ q4, pyGetI b3.parts q.prev = .ok q4 ∧ BackContinues g r.x p.x q.x q4.x))) ∧
    (∀ (k : Nat) (q : Part P D), b2.parts[k]? = some q → ∃ nx : Int, b2'.parts[k]? = some { q with next := nx } ∧
      (nx = q.next ∨ ∃ i : Nat, q.next = NEXT_NONE ∧ nx = i ∧ PointsBack b1'.parts i k)) ∧
    (Mutual b2.parts b1.parts → Mutual b2'.parts b1'.parts) := by
  unfold backStepFrames at hs
  obtain ⟨⟨c1, c2⟩, h1, hs⟩ := bind_ok hs
  simp only at hs
  obtain ⟨⟨c, n⟩, h2, hs⟩ := bind_ok hs
  cases hs
  rw [List.range_eq_range'] at h1
  obtain ⟨rfl, e2, e3, elen, e5⟩ := backSearchLoop_spec hg _ 0 _ _ _ _ (by simp) h1
  have old : ∀ (i : Nat) (p : Part P D), b1.parts[i]? = some p → ∃ cs, c1.parts[i]? = some { p with cands := cs } ∧
      (cs = [] ∨ (0 ≤ p.next ∧ p.prev = -1 ∧ ∃ r, b0.parts[p.next.toNat]? = some r ∧
        ∀ x ∈ cs, BackPromise g r.x p.x c2.xs x)) := by
    intro i p hp
    rcases (e5 i p hp).2 (by omega) with ⟨-, h⟩ | ⟨h3, h4, r, cs, h5, h6, h7⟩
    · exact ⟨p.cands, h, Or.inl (hc p (List.mem_of_getElem? hp))⟩
    · exact ⟨cs, h6, Or.inr ⟨h3, h4, r, h5, h7⟩⟩
  have old' : ∀ q ∈ c1.parts, ∃ (p : Part P D) (cs : List (D × Int)), p ∈ b1.parts ∧ q = { p with cands := cs } ∧
      (cs = [] ∨ (0 ≤ p.next ∧ p.prev = -1 ∧ ∃ r, b0.parts[p.next.toNat]? = some r ∧
        ∀ x ∈ cs, BackPromise g r.x p.x c2.xs x)) := by
    intro q hq
    obtain ⟨j, hj⟩ := List.getElem?_of_mem hq
    have hlt := (List.getElem?_eq_some_iff.1 hj).1
    obtain ⟨p, hp⟩ : ∃ p, b1.parts[j]? = some p := ⟨_, List.getElem?_eq_getElem (by omega)⟩
    obtain ⟨cs, a1, a2⟩ := old j p hp
    rw [hj] at a1
    exact ⟨p, cs, List.mem_of_getElem? hp, Option.some.inj a1, a2⟩
  have hk : ∀ p ∈ c1.parts, ∀ x ∈ p.cands, 0 ≤ x.2 := by
    intro q hq x hx
    obtain ⟨p, cs, -, rfl, h⟩ := old' q hq
    rcases h with rfl | ⟨-, -, r, -, h⟩
    · simp at hx
    · obtain ⟨k, x3, h, -⟩ := h x hx
      omega
  have hfree : ∀ p ∈ c1.parts, p.cands ≠ [] → p.prev = PREV_NONE := by
    intro q hq hne
    obtain ⟨p, cs, -, rfl, h⟩ := old' q hq
    rcases h with rfl | ⟨-, h, -⟩
    · simp at hne
    · exact h
  have hB := backLinkPhase_spec hk h2
  obtain ⟨-, -, g3, g4⟩ := C22_backlink_preserves _ _ _ _ _ hk hfree h2
  have hprev : c1.parts.map Part.prev = b1.parts.map Part.prev := by
    apply List.ext_getElem?
    intro i
    simp only [List.getElem?_map]
    cases hp : b1.parts[i]? with
    | none =>
      have : c1.parts[i]? = none := by
        rw [List.getElem?_eq_none_iff] at hp ⊢; omega
      rw [this]
    | some p =>
      obtain ⟨cs, a, -⟩ := old i p hp
      rw [a]; rfl
  refine ⟨e2, rfl, e3, rfl, by simpa [elen] using hB.clen, hB.nlen, ?_, ?_, ?_⟩
  · intro i p hp
    obtain ⟨cs, a1, a2⟩ := old i p hp
    obtain ⟨pv, fin, f1, -, f3⟩ := hB.cur i (backPrelim { p with cands := cs }) (by rw [List.getElem?_map, a1]; rfl)
    refine ⟨_, f1, rfl, rfl, ?_⟩
    rcases f3 with f3 | ⟨k, d, q, f3, f4, f5, f6, f7, f8, f9⟩
    · exact Or.inl f3
    · have hb := backBest f4
      rcases a2 with rfl | ⟨a2, a3, r, a4, a5⟩
      · simp [BestOf] at hb
      obtain ⟨k', x3, b1, b2, b3⟩ := a5 _ hb.1
      have hkk : k' = k := by simp only at b1; omega
      subst hkk
      have hx3 : x3 = q.x := by
        rw [Frame.xs, List.getElem?_map, f5] at b2
        exact (Option.some.inj b2).symm
      subst hx3
      refine Or.inr ⟨k', q, r, f3, a3, a2, a4, f5, f6, f7, by rw [f8]; exact b3, ?_⟩
      refine f9.imp id ?_
      intro f9
      unfold backAccept at f9
      obtain ⟨p1, q1, f9⟩ := bind_ok f9
      have q1 := pyGet_ok q1
      rw [a1] at q1
      cases q1
      obtain ⟨r1, q2, f9⟩ := bind_ok f9
      have q2 := pyGetI_nonneg a2 q2
      rw [a4] at q2
      cases q2
      obtain ⟨qq, q3, f9⟩ := bind_ok f9
      have q3 := pyGetI_nonneg (by omega) q3
      rw [Int.toNat_natCast, f5] at q3
      cases q3
      obtain ⟨q4, q5, f9⟩ := bind_ok f9
      obtain ⟨⟨angle, acc⟩, q6, f9⟩ := bind_ok f9
      exact ⟨q4, q5, angle, acc, q6, gate_smooth (Except.ok.inj f9)⟩
  · intro k q hq
    obtain ⟨nx, a, e⟩ := hB.nxt k q hq
    refine ⟨nx, a, ?_⟩
    rcases e with e | ⟨e0, i, p, e1, e2, e3, e4, -⟩
    · exact Or.inl e
    · exact Or.inr ⟨i, e0, e2, ⟨p, e3, e4⟩⟩
  · intro hm
    exact g4 (mutual_congr hprev hm)

end
end Verif.Track
