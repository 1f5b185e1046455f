/-
C138: a backward tracking step, and a whole backward run, does not raise.
-/
import Verif.Props.NoRaise
import Verif.Props.Gap

set_option linter.unusedSectionVars false

namespace Verif.Track
open Verif.Track.Spec Verif.Geo Verif.Geo.Spec

section
variable {P J C I D : Type} [Field D] [LinearOrder D] [IsStrictOrderedRing D]

/-- All that the backward search for a particle at `x1`, which goes to `x0`, calls returns. -/
structure BackCallsOK (g : Geo P J C I D) (b2 : Frame P D I) (m : Nat) (x0 x1 : P) : Prop where
  search : ∃ w, g.search (g.predict x0 x1) (g.proj (g.predict x0 x1)) b2.img = .ok w ∧ Ended m w ∧
    ∀ f ∈ w, f.ftnr < b2.parts.length
  angle : ∀ r ∈ b2.parts, ∃ a, g.angleAcc x1 (g.predict x0 x1) r.x = .ok a
  assess : g.add = true → ∃ n v c, g.assess (g.predict x0 x1) b2.img = .ok (n, v, c) ∧ (2 ≤ n → ∃ x4, g.pointPos v = .ok x4)

theorem backCands_total {g : Geo P J C I D} {x0 x1 x2 : P} {b2 : Frame P D I} {r : Found} (hr : r.ftnr = TR_UNUSED)
    (ha : ∀ r ∈ b2.parts, ∃ a, g.angleAcc x1 x2 r.x = .ok a) :
    ∀ (l : List Found) (cur : Part P D), (∀ f ∈ l, -1 ≤ f.ftnr ∧ f.ftnr < b2.parts.length) → cur.cands.length + l.length ≤ POSI →
      ∃ e, backCands g x0 x1 x2 b2 (l ++ [r]) cur = .ok { cur with cands := cur.cands ++ e }
  | [], cur, _, _ => by
    refine ⟨[], ?_⟩
    rw [List.nil_append, backCands, if_pos hr, List.append_nil]
  | f :: l, cur, hf, hl => by
    rw [List.length_cons] at hl
    have hf' : ∀ f ∈ l, -1 ≤ f.ftnr ∧ f.ftnr < b2.parts.length := fun f h => hf f (by simp [h])
    rw [List.cons_append, backCands]
    by_cases h1 : f.ftnr = TR_UNUSED
    · rw [if_pos h1]
      exact ⟨[], by rw [List.append_nil]⟩
    rw [if_neg h1]
    have h2 := hf f (by simp)
    simp only [TR_UNUSED] at h1
    obtain ⟨q, hq, hget⟩ := pyGetI_range (show 0 ≤ f.ftnr by omega) h2.2
    rw [hget]
    simp only [bind, Except.bind]
    by_cases hb : g.inBounds (g.sub x1 q.x) = true
    swap
    · rw [if_neg hb]
      exact backCands_total hr ha l cur hf' (by omega)
    rw [if_pos hb]
    obtain ⟨⟨angle, acc⟩, h3⟩ := ha q hq
    rw [h3]
    simp only
    by_cases hg : g.gate acc angle = true
    swap
    · rw [if_neg hg]
      exact backCands_total hr ha l cur hf' (by omega)
    rw [if_pos hg, register_total _ _ (by omega)]
    simp only
    obtain ⟨e, h4⟩ := backCands_total hr ha l { cur with cands := cur.cands ++
      [(g.rr ((g.dist x1 q.x + g.dist x0 x1) / 2) acc angle f.freq, f.ftnr)] } hf' (by simp only [List.length_append, List.length_singleton]; omega)
    simp only [List.append_assoc] at h4
    exact ⟨_, h4⟩

theorem backTryAdd_total {g : Geo P J C I D} {xz : P → Bool} {y : P → D} {x0 x1 x2 : P} {b2 : Frame P D I} {cur : Part P D}
    (h : g.add = true → ∃ n v c, g.assess x2 b2.img = .ok (n, v, c) ∧ (2 ≤ n → ∃ x4, g.pointPos v = .ok x4)) :
    backTryAdd g xz y x0 x1 x2 cur b2 = .ok (cur, b2) := by
  unfold backTryAdd
  by_cases h0 : g.add = true ∧ cur.cands = []
  swap
  · rw [if_neg h0]
  rw [if_pos h0]
  obtain ⟨n, v, c, h1, h2⟩ := h h0.1
  rw [h1]
  simp only [bind, Except.bind]
  by_cases hn : n ≥ 2
  swap
  · rw [if_neg hn]
  rw [if_pos hn]
  obtain ⟨x4, h4⟩ := h2 hn
  rw [h4]
  simp [backInVolume_false]

theorem backSearchOne_total {g : Geo P J C I D} {xz : P → Bool} {y : P → D} {b0 b1 b2 : Frame P D I} {m h : Nat} (hm : m ≤ POSI)
    {p : Part P D} (hp : b1.parts[h]? = some p)
    (hc : 0 ≤ p.next → p.prev = -1 → ∃ r, b0.parts[p.next.toNat]? = some r ∧ BackCallsOK g b2 m r.x p.x) :
    ∃ e, backSearchOne g xz y b0 b1 h b2 = .ok ({ p with cands := e }, b2) := by
  unfold backSearchOne
  rw [pyGet_some hp]
  simp only [bind, Except.bind]
  by_cases h1 : p.next < 0 ∨ p.prev ≠ -1
  · rw [if_pos h1]
    exact ⟨p.cands, rfl⟩
  rw [if_neg h1]
  simp only [not_or, not_lt, not_not] at h1
  obtain ⟨r, hr, hc⟩ := hc h1.1 h1.2
  have hpy : pyGetI b0.parts p.next = .ok r := by
    unfold pyGetI
    rw [if_pos h1.1]
    exact pyGet_some hr
  rw [hpy]
  simp only
  obtain ⟨w, w1, ⟨l, r', rfl, w2, w3, w4⟩, w5⟩ := hc.search
  rw [w1]
  simp only
  obtain ⟨e, he⟩ := backCands_total (x0 := r.x) (x1 := p.x) w2 hc.angle l { p with cands := [] }
    (fun f hf => ⟨w4 f hf, w5 f (by simp [hf])⟩) (by simp only [List.length_nil]; omega)
  rw [he]
  simp only
  rw [backTryAdd_total hc.assess]
  exact ⟨_, rfl⟩

theorem backSearchLoop_total {g : Geo P J C I D} {xz : P → Bool} {y : P → D} {b0 b1 b2 : Frame P D I} {m : Nat} (hm : m ≤ POSI)
    (hc : ∀ p ∈ b1.parts, 0 ≤ p.next → p.prev = -1 → ∃ r, b0.parts[p.next.toNat]? = some r ∧ BackCallsOK g b2 m r.x p.x) :
    ∀ (hs : List Nat) (b : Frame P D I), (∀ h ∈ hs, h < b1.parts.length) → SameButCands b1 b →
      ∃ b', backSearchLoop g xz y b0 hs b b2 = .ok (b', b2)
  | [], b, _, hS => ⟨b, rfl⟩
  | h :: hs, b, hh, hS => by
    obtain ⟨s1, s2, s3⟩ := hS
    have hlt : h < b.parts.length := by rw [s2]; exact hh h (by simp)
    obtain ⟨q, q1, q2, q3, q4⟩ := s3 h _ (List.getElem?_eq_getElem hlt)
    obtain ⟨e, he⟩ := backSearchOne_total (g := g) (xz := xz) (y := y) (b0 := b0) (b1 := b) (b2 := b2) hm (List.getElem?_eq_getElem hlt)
      (by rw [q2, q3, q4]; exact hc q (List.mem_of_getElem? q1))
    simp only [backSearchLoop, he, bind, Except.bind]
    refine backSearchLoop_total hm hc hs _ (fun x hx => hh x (by simp [hx])) ⟨s1, by simp [s2], ?_⟩
    intro k p hk
    simp only [List.getElem?_set] at hk
    split_ifs at hk with e1
    · cases hk
      subst e1
      exact ⟨q, q1, q2, q3, q4⟩
    · exact s3 k p hk

theorem backLinkLoop_total {accept : Nat → Int → Py Bool} {c0 n0 : List (Part P D)}
    (hk : ∀ (i : Nat) (p : Part P D), c0[i]? = some p → ∀ x ∈ p.cands, ∃ (k : Nat) (q : Part P D), x.2 = k ∧ n0[k]? = some q ∧
      (q.prev ≠ PREV_NONE → ∃ b, accept i k = .ok b)) (j : Nat) :
    ∀ (m : Nat) (c n : List (Part P D)), m + j = c0.length → BInv accept c0 n0 m c n →
    ∃ r, backLinkLoop accept (List.range' m j) c n = .ok r := by
  have hk0 : ∀ p ∈ c0, ∀ x ∈ p.cands, 0 ≤ x.2 := by
    intro p hp x hx
    obtain ⟨i, hi⟩ := List.getElem?_of_mem hp
    obtain ⟨k, q, h, -⟩ := hk i p hi x hx
    omega
  induction j with
  | zero => intro m c n _ _; exact ⟨_, rfl⟩
  | succ j ih =>
    intro m c n hm hI
    rw [List.range'_succ, backLinkLoop]
    suffices H : ∃ r, backLinkOne accept m c n = .ok r by
      obtain ⟨⟨c', n'⟩, hr⟩ := H
      obtain ⟨r, h2⟩ := ih (m + 1) c' n' (by omega) (backLinkOne_step hk0 hI hr)
      rw [hr]
      exact ⟨r, h2⟩
    obtain ⟨p, hp⟩ : ∃ p, c0[m]? = some p := ⟨_, List.getElem?_eq_getElem (by omega)⟩
    obtain ⟨pv, fin, hcm, -⟩ := hI.cur m p hp
    unfold backLinkOne
    rw [pyGet_some hcm]
    simp only [bind, Except.bind]
    rcases hcs : p.cands with _ | ⟨⟨d, k⟩, rest⟩
    · exact ⟨_, rfl⟩
    simp only
    obtain ⟨kn, q, e1, e2, e3⟩ := hk m p hp (d, k) (by rw [hcs]; simp)
    simp only at e1
    subst e1
    obtain ⟨nx, f1, -⟩ := hI.nxt kn q e2
    rw [pyGetI_nat f1]
    simp only
    have hset : ∀ r', ∃ n', pySetI n (kn : Int) r' = .ok n' := by
      intro r'
      have hlt := (List.getElem?_eq_some_iff.1 f1).1
      unfold pySetI
      rw [if_pos (by omega)]
      simp [hlt]
    by_cases h1 : q.prev = PREV_NONE ∧ nx = NEXT_NONE
    · rw [if_pos h1]
      obtain ⟨n', hn'⟩ := hset { q with next := (m : Int) }
      rw [hn']
      exact ⟨_, rfl⟩
    rw [if_neg h1]
    by_cases h2 : q.prev ≠ PREV_NONE ∧ nx = NEXT_NONE
    · rw [if_pos h2]
      obtain ⟨b, hb⟩ := e3 h2.1
      rw [hb]
      simp only
      cases b
      · exact ⟨_, rfl⟩
      · obtain ⟨n', hn'⟩ := hset { q with next := (m : Int) }
        rw [hn']
        exact ⟨_, rfl⟩
    · rw [if_neg h2]
      exact ⟨_, rfl⟩

/-- A backward step returns, if everything geometric does. -/
theorem backStepFrames_total {g : Geo P J C I D} (hg : SearchSane g) {xz : P → Bool} {y : P → D} {b0 b1 b2 b3 : Frame P D I} {m : Nat}
    (hm : m ≤ POSI) (hcl : ∀ p ∈ b1.parts, p.cands = [])
    (hc : ∀ p ∈ b1.parts, 0 ≤ p.next → p.prev = -1 → ∃ r, b0.parts[p.next.toNat]? = some r ∧ BackCallsOK g b2 m r.x p.x ∧
      ∀ q ∈ b2.parts, q.prev ≠ -1 → ∃ q4 a, pyGetI b3.parts q.prev = .ok q4 ∧ g.angleAcc q.x q4.x (g.predict2 q.x p.x r.x) = .ok a) :
    ∃ r, backStepFrames g xz y b0 b1 b2 b3 = .ok r := by
  obtain ⟨b', hb⟩ := backSearchLoop_total (g := g) (xz := xz) (y := y) (b0 := b0) (b1 := b1) (b2 := b2) hm
    (fun p hp h1 h2 => by
      obtain ⟨r, h3, h4, -⟩ := hc p hp h1 h2
      exact ⟨r, h3, h4⟩) (List.range b1.parts.length) b1 (fun h hh => List.mem_range.1 hh)
    ⟨rfl, rfl, fun h p hp => ⟨p, hp, rfl, rfl, rfl⟩⟩
  unfold backStepFrames
  rw [hb]
  simp only [bind, Except.bind]
  rw [List.range_eq_range'] at hb
  obtain ⟨-, e2, e3, elen, e5⟩ := backSearchLoop_spec hg _ 0 _ _ _ _ (by simp) hb
  suffices H : ∃ r, backLinkPhase (backAccept g b0 b' b2 b3) b'.parts b2.parts = .ok r by
    obtain ⟨r, hr⟩ := H
    rw [hr]
    exact ⟨_, rfl⟩
  unfold backLinkPhase
  simp only [List.range_eq_range']
  refine backLinkLoop_total ?_ _ 0 _ _ (by simp) (BInv.start _ _ _)
  intro i p hp x hx
  rw [List.getElem?_map, Option.map_eq_some_iff] at hp
  obtain ⟨p', hp', rfl⟩ := hp
  have hlt := (List.getElem?_eq_some_iff.1 hp').1
  obtain ⟨p0, hp0⟩ : ∃ p0, b1.parts[i]? = some p0 := ⟨_, List.getElem?_eq_getElem (by omega)⟩
  have hx' : x ∈ p'.cands := (sortPairs_perm p'.cands).mem_iff.1 hx
  rcases (e5 i p0 hp0).2 (by omega) with ⟨-, h⟩ | ⟨h3, h4, r, cs, h5, h6, h7⟩
  · rw [hp'] at h
    cases h
    rw [hcl _ (List.mem_of_getElem? hp0)] at hx'
    simp at hx'
  · rw [hp'] at h6
    cases h6
    obtain ⟨k, x3, g1, g2, -⟩ := h7 x hx'
    rw [Frame.xs, List.getElem?_map, Option.map_eq_some_iff] at g2
    obtain ⟨q, hq, -⟩ := g2
    refine ⟨k, q, g1, hq, fun hne => ?_⟩
    obtain ⟨r', h8, -, h9⟩ := hc p0 (List.mem_of_getElem? hp0) h3 h4
    rw [h5] at h8
    cases h8
    obtain ⟨q4, a, h10, h11⟩ := h9 q (List.mem_of_getElem? hq) hne
    unfold backAccept
    have hr : pyGetI b0.parts p0.next = .ok r := by
      unfold pyGetI
      rw [if_pos h3]
      exact pyGet_some h5
    rw [pyGet_some hp']
    simp only [bind, Except.bind]
    rw [hr]
    simp only
    rw [pyGetI_nat hq]
    simp only
    rw [h10]
    simp only
    rw [h11]
    exact ⟨_, rfl⟩

end

/-! ### The statement for cameras -/

/-- Every number a target carries is -1 or that of a particle of the frame. -/
def Numbered (b : Frame V3 ℝ (Img ℝ)) : Prop := ∀ ts ∈ b.img.targets, ∀ t ∈ ts, t.tnr < b.parts.length

/-- What can be asked of positions so that the backward search for a particle at `x1` that goes to `x0` does not raise: the expected
position before can be projected; the particles there (`X2`) stand still only if the particle does, and likewise those of the frame before
that one (`X3`) with respect to the parabola. -/
def BackTrackable (s : Setup) (x0 x1 : V3) (X2 X3 : List V3) : Prop :=
  Projectable s (x1.smul 2 - x0) ∧ (∀ x3 ∈ X2, x0 = x1 ↔ x3 = x1) ∧
  ∀ x3 ∈ X2, ∀ x4 ∈ X3, x4 = x3 ↔ (x3.smul 5 - x1.smul 4 + x0).smul (1 / 2) = x3

theorem found_numbered {s : Setup} (hn : s.cals.length ≤ 4) (him : (s.ip.imx : ℝ) ≤ 10 ^ 19 ∧ (s.ip.imy : ℝ) ≤ 10 ^ 19) {N : ℕ} {X : V3}
    {v : List (ℝ × ℝ)} {i : Img ℝ} (hi : ∀ ts ∈ i.targets, ∀ t ∈ ts, t.tnr < N) {w : List Found} (hw : s.tracker.search X v i = .ok w) :
    ∀ f ∈ w, f.ftnr < N := by
  have hw' : (sortedCandidates s.cams X v i.targets).bind (fun l => .ok (l.map fun r => (⟨r.ftnr, r.freq⟩ : Found))) = .ok w := hw
  obtain ⟨l, hl, he⟩ := bind_ok hw'
  cases he
  intro f hf
  rw [List.mem_map] at hf
  obtain ⟨r, hr, rfl⟩ := hf
  show r.ftnr < N
  by_cases hu : r.ftnr = TR_UNUSED
  · rw [hu, TR_UNUSED]
    omega
  obtain ⟨-, as, -, h2⟩ := C81_candidates_partial s.cams X v i.targets him hn l hl
  obtain ⟨-, S, h3, h4⟩ := h2 r hr hu
  have hf : r.freq ≠ 0 := fun e => hu (candidateList_unused hl him hn r hr e)
  obtain ⟨cam, hcam⟩ := Finset.card_pos.1 (show 0 < S.card by omega)
  obtain ⟨-, v', a, -, -, h5 | h5⟩ := h4 cam hcam
  · obtain ⟨ts, j, t, g1, g2, g3, -⟩ := h5
    rw [← g3]
    exact hi ts (List.mem_of_getElem? g1) t (List.mem_of_getElem? g2)
  · obtain ⟨ts, t, g1, g2, g3⟩ := h5
    rw [← g3]
    exact hi ts (List.mem_of_getElem? g1) t (List.mem_of_getLast? g2)

theorem back_calls_ok {s : Setup} (hn : 1 ≤ s.cals.length ∧ s.cals.length ≤ 2) (him : (s.ip.imx : ℝ) ≤ 10 ^ 19 ∧ (s.ip.imy : ℝ) ≤ 10 ^ 19)
    {b2 : Frame V3 ℝ (Img ℝ)} (h2 : AllSeen s b2.img) (hr : s.add = true → RaysOK s b2.img) (hnum : Numbered b2) {x0 x1 : V3}
    {X3 : List V3} (ht : BackTrackable s x0 x1 (b2.parts.map Part.x) X3) : BackCallsOK s.tracker b2 7 x0 x1 where
  search := by
    have e : s.tracker.predict x0 x1 = x1.smul 2 - x0 := by
      show searchVolumeCenterMoving x0 x1 = _
      ext <;> simp [searchVolumeCenterMoving]
    rw [e]
    obtain ⟨w, h1, h2⟩ := tracker_search_total hn him ht.1 (proj_length ht.1) h2
    exact ⟨w, h1, h2, found_numbered (by omega) him hnum h1⟩
  angle := by
    intro r hr
    have := ht.2.1 r.x (List.mem_map_of_mem hr)
    obtain ⟨angle, h⟩ := angleAcc_ok (a := x1) (b := searchVolumeCenterMoving x0 x1) (c := r.x) (by
      rw [← this]
      constructor
      · intro e
        have hx := congrArg V3.x e
        have hy := congrArg V3.y e
        have hz := congrArg V3.z e
        simp [searchVolumeCenterMoving] at hx hy hz
        ext <;> linarith
      · intro e
        rw [e]
        ext <;> simp [searchVolumeCenterMoving] <;> ring)
    exact ⟨_, h⟩
  assess := by
    intro ha
    have e : s.tracker.predict x0 x1 = x1.smul 2 - x0 := by
      show searchVolumeCenterMoving x0 x1 = _
      ext <;> simp [searchVolumeCenterMoving]
    rw [e]
    obtain ⟨n, v, c, a1, a2⟩ := assessNew_images him ht.1 h2
    refine ⟨n, v, c, a1, fun hn => ?_⟩
    obtain ⟨x4, hx⟩ := position_total (hr ha) (a2 hn)
    exact ⟨x4, hx⟩

/-- C138 (partial): a backward step does not raise, whatever the number of particles and targets and whether or not particles are to
be added: with one or two cameras, if every camera has a target in the earlier frame, the targets' numbers are those of particles, links
go to particles and every particle is trackable. Missing: more than two cameras (false: `C138_no_end_refuted`), target numbers without
particle (false: `C138_number_refuted`), a camera without target, a particle at rest (C99). -/
theorem C138_step_returns_partial (s : Setup) (hn : 1 ≤ s.cals.length ∧ s.cals.length ≤ 2)
    (him : (s.ip.imx : ℝ) ≤ 10 ^ 19 ∧ (s.ip.imy : ℝ) ≤ 10 ^ 19) (xz : V3 → Bool) (yy : V3 → ℝ) (b0 b1 b2 b3 : Frame V3 ℝ (Img ℝ))
    (hcl : ∀ p ∈ b1.parts, p.cands = []) (h2 : AllSeen s b2.img) (hr : s.add = true → RaysOK s b2.img) (hnum : Numbered b2)
    (hl1 : ∀ p ∈ b1.parts, p.next = -2 ∨ ∃ k : ℕ, p.next = k ∧ k < b0.parts.length)
    (hl2 : ∀ q ∈ b2.parts, q.prev = -1 ∨ ∃ k : ℕ, q.prev = k ∧ k < b3.parts.length)
    (hc : ∀ x0 ∈ b0.parts.map Part.x, ∀ x1 ∈ b1.parts.map Part.x, BackTrackable s x0 x1 (b2.parts.map Part.x) (b3.parts.map Part.x)) :
    ∃ r, backStepFrames s.tracker xz yy b0 b1 b2 b3 = .ok r := by
  have hg : SearchSane s.tracker := C81_search_sane s.cams _ him (by show s.cals.length ≤ 4; omega)
  refine backStepFrames_total hg (m := 7) (by decide) hcl ?_
  intro p hp hnx hpv
  rcases hl1 p hp with h | ⟨k, hk, hlt⟩
  · omega
  have ht := hc b0.parts[k].x (List.mem_map_of_mem (List.getElem_mem hlt)) p.x (List.mem_map_of_mem hp)
  refine ⟨b0.parts[k], by rw [hk, Int.toNat_natCast, List.getElem?_eq_getElem hlt], back_calls_ok hn him h2 hr hnum ht, ?_⟩
  intro q hq hne
  rcases hl2 q hq with h | ⟨j, hj, hjl⟩
  · exact absurd h hne
  have h3 := ht.2.2 q.x (List.mem_map_of_mem hq) b3.parts[j].x (List.mem_map_of_mem (List.getElem_mem hjl))
  obtain ⟨angle, h4⟩ := angleAcc_ok h3
  refine ⟨b3.parts[j], (angle, (b3.parts[j].x - q.x - ((q.x.smul 5 - p.x.smul 4 + b0.parts[k].x).smul (1 / 2) - q.x)).norm),
    by rw [hj]; exact pyGetI_nat (List.getElem?_eq_getElem hjl), ?_⟩
  show angleAcc q.x b3.parts[j].x ((q.x.smul 5 - p.x.smul 4 + b0.parts[k].x).smul 0.5) = _
  rw [show (0.5 : ℝ) = 1 / 2 by norm_num]
  exact h4

theorem backSteps_total {F : Type} {disk : Int → F} {process : List F → Py (List F)} {first : Int} {inv : Int → Run F → Prop}
    (hstep : ∀ n r, first < n → inv n r → ∃ r', backStep disk process first n r = .ok r')
    (hinv : ∀ n r r', first < n → inv n r → backStep disk process first n r = .ok r' → inv (n - 1) r') :
    ∀ (k : ℕ) (n : Int) (r : Run F), n - k = first → inv n r → ∃ r', backSteps disk process first k n r = .ok r' ∧ inv first r'
  | 0, n, r, hk, hI => ⟨r, rfl, by
      have : n = first := by push_cast at hk; omega
      rw [← this]; exact hI⟩
  | k + 1, n, r, hk, hI => by
    push_cast at hk
    obtain ⟨r1, h1⟩ := hstep n r (by omega) hI
    obtain ⟨r', h2, h3⟩ := backSteps_total hstep hinv k (n - 1) r1 (by omega) (hinv n r r1 (by omega) hI h1)
    refine ⟨r', ?_, h3⟩
    rw [backSteps, h1]
    exact h2

/-- C138 (partial), a whole backward run: it does not raise. Consistently linked frames `last - L .. last` from disk; otherwise as in
`C138_step_returns_partial`. -/
theorem C138_run_returns_partial (s : Setup) (hn : 1 ≤ s.cals.length ∧ s.cals.length ≤ 2)
    (him : (s.ip.imx : ℝ) ≤ 10 ^ 19 ∧ (s.ip.imy : ℝ) ≤ 10 ^ 19) (xz : V3 → Bool) (yy : V3 → ℝ)
    (disk : Int → Frame V3 ℝ (Img ℝ)) (last : Int) (L : ℕ) (hL : 2 ≤ L)
    (hm : ∀ n, last - L ≤ n → n < last → Mutual (disk n).parts (disk (n + 1)).parts)
    (hc : ∀ n, ∀ p ∈ (disk n).parts, p.cands = [])
    (hv : ∀ p ∈ (disk (last - L)).parts, p.prev = -1)
    (hseen : ∀ n, last - L ≤ n → n < last → AllSeen s (disk n).img ∧ (s.add = true → RaysOK s (disk n).img) ∧ Numbered (disk n))
    (ht : ∀ n, last - L < n → n < last → ∀ x0 ∈ (disk (n + 1)).parts.map Part.x, ∀ x1 ∈ (disk n).parts.map Part.x,
      BackTrackable s x0 x1 ((disk (n - 1)).parts.map Part.x) (if n = last - L + 1 then [] else (disk (n - 2)).parts.map Part.x))
    (a b c d : Frame V3 ℝ (Img ℝ)) :
    ∃ r, backRun disk (backBuf s.tracker xz yy) (last - L) last [a, b, c, d] = .ok r := by
  have hg : SearchSane s.tracker := C81_search_sane s.cams _ him (by show s.cals.length ≤ 4; omega)
  have h0 : BRInv s.tracker disk last L 0 ⟨[disk last, disk (last - 1), disk (last - 2), disk (last - 3)],
        [.read last, .read (last - 1), .read (last - 2), .read (last - 3)]⟩ := by
    refine ⟨⟨_, _, _, _, rfl, by simp, ?_, by simp, ?_, ?_, ?_, ⟨[], by simp [writesOf]⟩⟩, ?_, ?_⟩
    · intro j p hp
      simp at hp
      exact ⟨p.next, hp, fun _ => rfl⟩
    · have := hm (last - 1) (by omega) (by omega)
      simpa using this
    · simp
    · simp
    · simp [writesOf, BackChain]
    · simp [writesOf]
  have hst : ∀ (i : ℕ) (r : Run (Frame V3 ℝ (Img ℝ))), i + 1 < L → BRInv s.tracker disk last L i r →
      ∃ r', backStep disk (backBuf s.tracker xz yy) (last - L) (last - 1 - i) r = .ok r' := by
    intro i r hi hI
    obtain ⟨⟨a, b, c, d, hb, ha, hbp, hbl, hab, hcc, hdd, -⟩, -, -⟩ := hI
    have hcd : c = disk (last - 2 - i) := hcc (by omega)
    subst hcd
    have hcb : ∀ p ∈ b.parts, p.cands = [] := by
      intro q hq
      obtain ⟨j, hj⟩ := List.getElem?_of_mem hq
      have hlt := (List.getElem?_eq_some_iff.1 hj).1
      obtain ⟨p, hp⟩ : ∃ p, (disk (last - 1 - i)).parts[j]? = some p := ⟨_, List.getElem?_eq_getElem (by omega)⟩
      obtain ⟨nx, e, -⟩ := hbp j p hp
      rw [hj] at e
      rw [Option.some.inj e]
      exact hc _ p (List.mem_of_getElem? hp)
    have hbx : b.parts.map Part.x = (disk (last - 1 - i)).parts.map Part.x := by
      refine map_eq_of_getElem? _ hbl (fun j p hp => ?_)
      obtain ⟨nx, e, -⟩ := hbp j p hp
      exact ⟨_, e, rfl⟩
    obtain ⟨s1, s2, s3⟩ := hseen (last - 2 - i) (by omega) (by omega)
    have ht' := ht (last - 1 - i) (by omega) (by omega)
    rw [show last - 1 - (i : Int) + 1 = last - i by ring, show last - 1 - (i : Int) - 1 = last - 2 - i by ring,
      show last - 1 - (i : Int) - 2 = last - 3 - i by ring] at ht'
    have hstep : ∃ r', backStepFrames s.tracker xz yy a b (disk (last - 2 - i)) d = .ok r' := by
      by_cases hf : i + 2 = L
      · -- the step to the first frame: nothing there has a link further back
        have hfv : ∀ q ∈ (disk (last - 2 - i)).parts, q.prev = -1 := by
          rw [show last - 2 - (i : Int) = last - L by omega]
          exact hv
        refine backStepFrames_total hg (m := 7) (by decide) hcb ?_
        intro p hp hnx hpv
        rcases hab.2.1 p hp with h | ⟨k, hk, hlt⟩
        · simp only [NEXT_NONE] at h
          omega
        have ht2 := ht' a.parts[k].x (by rw [← ha]; exact List.mem_map_of_mem (List.getElem_mem hlt)) p.x
          (by rw [← hbx]; exact List.mem_map_of_mem hp)
        refine ⟨a.parts[k], by rw [hk, Int.toNat_natCast, List.getElem?_eq_getElem hlt], back_calls_ok hn him s1 s2 s3 ht2, ?_⟩
        intro q hq hne
        exact absurd (hfv q hq) hne
      · have hdd' : d = disk (last - 3 - i) := hdd (by omega)
        subst hdd'
        rw [if_neg (by omega)] at ht'
        refine C138_step_returns_partial s hn him xz yy a b _ _ hcb s1 s2 s3 ?_ ?_ ?_
        · exact hab.2.1
        · have := (hm (last - 3 - i) (by omega) (by omega)).2.2
          rw [show last - 3 - (i : Int) + 1 = last - 2 - i by ring] at this
          exact this
        · rw [ha, hbx]
          exact ht'
    obtain ⟨⟨b', c'⟩, hr'⟩ := hstep
    unfold backStep backBuf
    rw [hb]
    simp only [hr', bind, Except.bind, Run.next, fbNext, writeFromStart, pyGet, List.cons_append, List.nil_append,
      List.getElem?_cons_zero]
    exact ⟨_, rfl⟩
  obtain ⟨r1, h1, hI⟩ := backSteps_total (disk := disk) (process := backBuf s.tracker xz yy) (first := last - L)
    (inv := fun n r => ∃ i : ℕ, n = last - 1 - i ∧ i < L ∧ BRInv s.tracker disk last L i r)
    (by
      rintro n r hn' ⟨i, rfl, hi, hI⟩
      exact hst i r (by omega) hI)
    (by
      rintro n r r' hn' ⟨i, rfl, hi, hI⟩ h
      refine ⟨i + 1, by push_cast; ring, by omega, ?_⟩
      exact BRInv.step hg hm hc (by omega) hI h)
    (L - 1) (last - 1) _ (by omega) ⟨0, by simp, by omega, h0⟩
  obtain ⟨i, -, -, ⟨a', b', c', d', hb, -⟩, -, -⟩ := hI
  unfold backRun
  rw [show (last - 1 - (last - (L : Int))).toNat = L - 1 by omega, backStart_eq, h1]
  simp only [bind, Except.bind]
  rw [if_neg (by omega)]
  simp [writeFromStart, Run.next, fbNext, pyGet, bind, Except.bind, hb]

/-! ### Where it raises -/

/-- A frame with one particle at 0, these links and targets. -/
def backStill (prev next : Int) (k : ℕ) (ts : List (List (Search.Tgt ℚ))) (h : ∀ l ∈ ts, ∀ t ∈ l, -1 ≤ t.tnr) : Frame ℚ ℚ (Img ℚ) :=
  ⟨0, List.replicate k ⟨0, prev, next, [], 0⟩, ⟨ts, [], h⟩⟩

/-- The backward step for one particle that has a link forward and none back. -/
def backStillStep (n k : ℕ) (ts : List (List (Search.Tgt ℚ))) (h : ∀ l ∈ ts, ∀ t ∈ l, -1 ≤ t.tnr) :
    Py (Frame ℚ ℚ (Img ℚ) × Frame ℚ ℚ (Img ℚ)) :=
  backStepFrames (stillGeo n) (fun _ => true) id (backStill 0 NEXT_NONE 1 ts h) (backStill PREV_NONE 0 1 ts h)
    (backStill PREV_NONE NEXT_NONE k ts h) (backStill PREV_NONE NEXT_NONE k ts h)

/-- Two cameras, two targets each, of particles 0 and 1. -/
def pairTargets : List (List (Search.Tgt ℚ)) := [[⟨50, 50, 0⟩, ⟨50, 51, 1⟩], [⟨50, 50, 0⟩, ⟨50, 51, 1⟩]]

/-- C138 (refuted): a target whose number is that of no particle is enough: with two particles in the earlier frame the step returns,
with one particle (and targets still numbered 0 and 1) it raises an IndexError, where the forward step does not. -/
theorem C138_number_refuted :
    errOf (backStillStep 2 2 pairTargets (by decide +kernel)) = none ∧
    errOf (backStillStep 2 1 pairTargets (by decide +kernel)) = some .indexError ∧
    errOf (stillStep 2 1 pairTargets (by decide +kernel)) = none := by
  refine ⟨?_, ?_, ?_⟩ <;> decide +kernel

/-- C138 (refuted) for three cameras: as in C99, the list of candidates has no end mark. -/
theorem C138_no_end_refuted : errOf (backStillStep 3 3 threeCamTargets (by decide +kernel)) = some .indexError := by
  decide +kernel

/-! ### Example: two particles, 30 apart, both with gaps between frames 1 and 2 and between 2 and 3 -/

def gapPrev (i : ℕ) (n : Int) : Int := if n ≤ 0 ∨ n = 2 ∨ n = 3 then -1 else i
def gapNext (i : ℕ) (n : Int) : Int := if 5 ≤ n ∨ n < 0 ∨ n = 1 ∨ n = 2 then -2 else i

noncomputable def gapDisk (n : Int) : Frame V3 ℝ (Img ℝ) :=
  ⟨n, [⟨twin 0 n, gapPrev 0 n, gapNext 0 n, [], 1000000⟩, ⟨twin 1 n, gapPrev 1 n, gapNext 1 n, [], 1000000⟩], twinImg n (n + 30)⟩

theorem gap_parts (n : Int) : (gapDisk n).parts.map Part.x = (twinDisk n).parts.map Part.x := rfl

theorem gap_get {n : Int} {k : ℕ} {p : Part V3 ℝ} (h : (gapDisk n).parts[k]? = some p) :
    k < 2 ∧ p.x = twin k n ∧ p.prev = gapPrev k n ∧ p.next = gapNext k n ∧ p.cands = [] := by
  match k, h with
  | 0, h => simp [gapDisk] at h; rw [← h]; exact ⟨by norm_num, rfl, rfl, rfl, rfl⟩
  | 1, h => simp [gapDisk] at h; rw [← h]; exact ⟨by norm_num, rfl, rfl, rfl, rfl⟩
  | k + 2, h => simp [gapDisk] at h

theorem gap_some {n : Int} {k : ℕ} (hk : k < 2) : ∃ p, (gapDisk n).parts[k]? = some p :=
  ⟨_, List.getElem?_eq_getElem (by simpa [gapDisk] using hk)⟩

theorem gap_mutual (n : Int) (h0 : 0 ≤ n) (h5 : n < 5) : Mutual (gapDisk n).parts (gapDisk (n + 1)).parts := by
  have hl : ∀ k : ℕ, gapNext k n = -2 ∧ gapPrev k (n + 1) = -1 ∨ gapNext k n = k ∧ gapPrev k (n + 1) = k := by
    intro k
    unfold gapNext gapPrev
    by_cases h : n = 1 ∨ n = 2
    · rw [if_pos (by omega), if_pos (by omega)]
      exact Or.inl ⟨rfl, rfl⟩
    · rw [if_neg (by omega), if_neg (by omega)]
      exact Or.inr ⟨rfl, rfl⟩
  refine ⟨?_, ?_, ?_⟩
  · intro h k
    constructor
    · rintro ⟨p, hp, e⟩
      obtain ⟨g1, -, -, g2, -⟩ := gap_get hp
      rw [g2] at e
      have : k = h := by rcases hl h with ⟨e1, -⟩ | ⟨e1, -⟩ <;> omega
      subst this
      obtain ⟨q, hq⟩ := gap_some (n := n + 1) g1
      refine ⟨q, hq, ?_⟩
      rw [(gap_get hq).2.2.1]
      rcases hl k with ⟨e1, -⟩ | ⟨-, e1⟩
      · omega
      · exact e1
    · rintro ⟨p, hp, e⟩
      obtain ⟨g1, -, g2, -, -⟩ := gap_get hp
      rw [g2] at e
      have : h = k := by rcases hl k with ⟨-, e1⟩ | ⟨-, e1⟩ <;> omega
      subst this
      obtain ⟨q, hq⟩ := gap_some (n := n) g1
      refine ⟨q, hq, ?_⟩
      rw [(gap_get hq).2.2.2.1]
      rcases hl h with ⟨-, e1⟩ | ⟨e1, -⟩
      · omega
      · exact e1
  · intro p hp
    obtain ⟨k, hk⟩ := List.getElem?_of_mem hp
    obtain ⟨g1, -, -, g2, -⟩ := gap_get hk
    rw [g2]
    rcases hl k with ⟨e1, -⟩ | ⟨e1, -⟩
    · exact Or.inl e1
    · exact Or.inr ⟨k, e1, by simpa [gapDisk] using g1⟩
  · intro p hp
    obtain ⟨k, hk⟩ := List.getElem?_of_mem hp
    obtain ⟨g1, -, g2, -, -⟩ := gap_get hk
    rw [g2]
    rcases hl k with ⟨-, e1⟩ | ⟨-, e1⟩
    · exact Or.inl e1
    · exact Or.inr ⟨k, e1, by simpa [gapDisk] using g1⟩

theorem gap_cands (n : Int) : ∀ p ∈ (gapDisk n).parts, p.cands = [] := by
  intro p hp
  obtain ⟨k, hk⟩ := List.getElem?_of_mem hp
  exact (gap_get hk).2.2.2.2

theorem gap_first : ∀ p ∈ (gapDisk (5 - (5 : ℕ))).parts, p.prev = -1 := by
  intro p hp
  obtain ⟨k, hk⟩ := List.getElem?_of_mem hp
  rw [(gap_get hk).2.2.1, gapPrev, if_pos (by omega)]

theorem gap_numbered (n : Int) : Numbered (gapDisk n) := by
  intro ts hts t ht
  obtain ⟨cam, hcam⟩ := List.getElem?_of_mem hts
  obtain ⟨q, -, rfl⟩ := twin_targets (n := n) hcam
  simp only [List.mem_cons, List.not_mem_nil, or_false] at ht
  rcases ht with rfl | rfl <;> simp [gapDisk]

theorem gap_run (c0 c1 c2 c3 : Frame V3 ℝ (Img ℝ)) :
    ∃ r, backRun gapDisk (backBuf airSetup.tracker (fun _ => true) V3.y) (5 - (5 : ℕ)) 5 [c0, c1, c2, c3] = .ok r := by
  refine C138_run_returns_partial airSetup (by simp [airSetup]) (by norm_num [airSetup]) _ _ gapDisk 5 5 (by norm_num) ?_ gap_cands gap_first
    ?_ ?_ c0 c1 c2 c3
  · intro n h1 h2
    exact gap_mutual n (by omega) h2
  · intro n _ _
    exact ⟨(twin_seen n).1, fun _ => (twin_seen n).2, gap_numbered n⟩
  · intro n h1 h2 x0 h0 x1 hx1
    obtain ⟨i, hi, rfl⟩ := twin_mem (n := n + 1) h0
    obtain ⟨j, hj, rfl⟩ := twin_mem (n := n) hx1
    refine ⟨airSetup_projectable (by norm_num [twin, V3.smul]), ?_, ?_⟩
    · intro x3 h3
      obtain ⟨k, hk, rfl⟩ := twin_mem (n := n - 1) h3
      rw [twin_eq, twin_eq]
      omega
    · intro x3 h3 x4 h4
      obtain ⟨k, hk, rfl⟩ := twin_mem (n := n - 1) h3
      split_ifs at h4 with hfirst
      · simp at h4
      · obtain ⟨l, hl, rfl⟩ := twin_mem (n := n - 2) h4
        rw [twin_eq]
        constructor
        · intro e
          omega
        · intro e
          have e := congrArg V3.x e
          simp only [twin, V3.smul, V3.sub_x, V3.add_x] at e
          have : 3 * ((n : ℝ) - 1 + 30 * k) + ((n : ℝ) + 1 + 30 * i) = 4 * (n + 30 * j) := by push_cast at e; linarith
          have : 3 * (n - 1 + 30 * (k : Int)) + (n + 1 + 30 * (i : Int)) = 4 * (n + 30 * (j : Int)) := by exact_mod_cast this
          omega

theorem gap_closable (i : ℕ) (hi : i < 2) (n : Int) (hn : n = 2 ∨ n = 3) :
    Closable airSetup gapDisk (twin i) (fun _ => i) (4 + 2 * airSetup.dacc) n := by
  have e1 : twin i n - twin i (n - 1) = ⟨1, 0, 0⟩ := by
    have := twin_step i (n - 1)
    rwa [sub_add_cancel] at this
  have e2 : twin i n - twin i (n + 1) = ⟨-1, 0, 0⟩ := by ext <;> simp [twin]
  have e3 : twin i (n - 1) - twin i n = ⟨-1, 0, 0⟩ := by ext <;> simp [twin]
  have e4 : (twin i n).smul 2 - twin i (n + 1) = twin i (n - 1) := by ext <;> simp [twin, V3.smul]; ring
  have hzero : (⟨-1, 0, 0⟩ - ⟨-1, 0, 0⟩ : V3) = ⟨0, 0, 0⟩ := by ext <;> simp
  have hang : AngleOf ⟨-1, 0, 0⟩ ⟨-1, 0, 0⟩ 0 := by
    refine Or.inl ⟨?_, ?_, le_refl _, by norm_num, ?_⟩
    · intro e
      have := congrArg V3.x e
      norm_num at this
    · intro e
      have := congrArg V3.x e
      norm_num at this
    · rw [norm_axis]
      simp [V3.dot]
  refine ⟨⟨?_, 0, ?_, ?_⟩, twin_away i hi (n - 1), ?_, ?_⟩
  · rw [e1]
    norm_num [Pos3dInBounds, airSetup]
  · rw [e2, e3]
    exact hang
  · right
    rw [e2, e3, hzero, norm_axis]
    norm_num [airSetup]
  · rw [e4]
    have hs := twin_shown i hi (n - 2) (n - 1) (by omega) (by omega) (Or.inr (by ring))
    rw [show n - 2 + 1 = n - 1 by ring] at hs
    refine near_seen (Y := twin i (n - 1)) ⟨rfl, fun ts hts => ?_⟩ hs (airSetup_air (by norm_num [twin])) ?_
    · obtain ⟨cam, hcam⟩ := List.getElem?_of_mem hts
      obtain ⟨q, -, rfl⟩ := twin_targets (n := n - 1) hcam
      simp [gapDisk]
    · norm_num [InOpenBox, airSetup, twin]
  · intro q hq hne
    have e5 : twin i (n - 2) - twin i (n - 1) = ⟨-1, 0, 0⟩ := by
      ext <;> simp [twin]
      ring
    have e6 : ((twin i (n - 1)).smul 5 - (twin i n).smul 4 + twin i (n + 1)).smul (1 / 2) - twin i (n - 1) = ⟨-1, 0, 0⟩ := by
      ext <;> simp [twin, V3.smul]
      ring
    have e7 : ((twin i (n - 1)).smul 5 - (twin i n).smul 4 + twin i (n + 1)).smul (1 / 2) - twin i (n - 2) = ⟨0, 0, 0⟩ := by
      ext <;> simp [twin, V3.smul]
      ring
    refine ⟨0, ?_, ?_⟩
    · rw [e5, e6]
      exact hang
    · right
      rw [e7, norm_axis]
      norm_num [airSetup]

theorem gap_trail (i : ℕ) (hi : i < 2) : Trail gapDisk (twin i) (fun _ => i) (5 - (5 : ℕ)) 5 := by
  refine ⟨?_, ?_, ?_⟩
  · intro n h1 h2
    obtain ⟨p, hp⟩ := gap_some (n := n) hi
    obtain ⟨-, g1, g2, -, -⟩ := gap_get hp
    refine ⟨p, hp, g1, ?_⟩
    rw [g2, gapPrev]
    split_ifs with h
    · exact Or.inl rfl
    · exact Or.inr ⟨by omega, rfl⟩
  · intro n p q h1 h2 hp e hq
    obtain ⟨-, -, g2, -, -⟩ := gap_get hp
    obtain ⟨-, -, -, g4, -⟩ := gap_get hq
    rw [g2, gapPrev] at e
    rw [g4, gapNext]
    split_ifs at e with h
    rw [if_pos (by omega)]
  · obtain ⟨p, hp⟩ := gap_some (n := 5) hi
    obtain ⟨-, g1, g2, -, -⟩ := gap_get hp
    refine ⟨p, hp, ?_⟩
    rw [g2, gapPrev, if_neg (by omega)]

/-- Both particles meet all hypotheses of C137; the run returns (C138) and links both trajectories in frames 4, 3, 2 and 1. -/
example (c0 c1 c2 c3 : Frame V3 ℝ (Img ℝ)) :
    ∃ r, backRun gapDisk (backBuf airSetup.tracker (fun _ => true) V3.y) (5 - (5 : ℕ)) 5 [c0, c1, c2, c3] = .ok r ∧
      (writesOf r.log).dropLast.map Prod.fst = [4, 3, 2, 1] ∧
      ∀ i : ℕ, i < 2 → ∀ n f, (n, f) ∈ (writesOf r.log).dropLast →
        ∃ p, f.parts[i]? = some p ∧ p.x = twin i n ∧ p.prev = i ∧ p.next = i := by
  obtain ⟨r, hr⟩ := gap_run c0 c1 c2 c3
  have key := fun (i : ℕ) (hi : i < 2) => C137_gaps_closed airSetup (by simp [airSetup]) (by norm_num [airSetup]) 4 (4 + 2 * airSetup.dacc)
    twin_longest (by norm_num [airSetup]) _ _ gapDisk 5 5 (by norm_num) (fun n h1 h2 => gap_mutual n (by omega) h2) gap_cands
    (fun p hp => Or.inl (gap_first p hp)) (twin i) (fun _ => i) (gap_trail i hi) (by
      intro n p h1 h2 hp e
      obtain ⟨-, -, g2, -, -⟩ := gap_get hp
      rw [g2, gapPrev] at e
      refine gap_closable i hi n ?_
      split_ifs at e with h
      omega) c0 c1 c2 c3 r hr
  refine ⟨r, hr, ?_, fun i hi => (key i hi).2⟩
  rw [(key 0 (by norm_num)).1]
  decide +kernel

end Verif.Track
