/-
A forward step that may add particles returns: the frames grow, so what the step calls must return on all grown frames.
-/
import Verif.Proofs.Total

set_option linter.unusedSectionVars false

namespace Verif.Track
open Verif.Track.Spec

section
variable {P J C I D : Type} [Field D] [LinearOrder D] [IsStrictOrderedRing D]

/-- All that the search for particle `h` calls returns, on all frames with `G2`, `G3`; and adding keeps these. -/
structure AddCallsOK (g : Geo P J C I D) (b1 : Frame P D I) (G2 G3 : Frame P D I → Prop) (m h : Nat) (x0 : Option P) (x1 : P) :
    Prop where
  calls : ∀ b2 b3, G2 b2 → G3 b3 → CallsOK g b1 b2 b3 m h x0 x1
  grow3 : ∀ b2 b3 r, G2 b2 → G3 b3 → r ∈ b2.parts → ∀ n v c x4, g.assess (expectedAfter g x0 x1 r.x) b3.img = .ok (n, v, c) →
    2 ≤ n → g.pointPos v = .ok x4 → g.add = true → ∃ b3', addParticle g b3 x4 c = .ok b3' ∧ G3 b3'
  grow2 : x0.isSome = true → g.add = true → ∀ b2, G2 b2 → ∃ n v c, g.assess (expected g x0 x1) b2.img = .ok (n, v, c) ∧
    (2 ≤ n → ∃ x3, g.pointPos v = .ok x3 ∧ (g.inVolume x3 = true → g.inBounds (g.sub (expected g x0 x1) x3) = true →
      (∃ a, g.angleAcc x1 (expected g x0 x1) x3 = .ok a) ∧ ∃ b2', addParticle g b2 x3 c = .ok b2' ∧ G2 b2'))

theorem tryNew_grow {g : Geo P J C I D} {G3 : Frame P D I → Prop} {ctx : Ctx P} {b3 : Frame P D I} (hG : G3 b3) {n : Nat} {v : J} {c : C}
    (h : g.assess ctx.x5 b3.img = .ok (n, v, c))
    (h2 : 2 ≤ n → ∃ x4, g.pointPos v = .ok x4 ∧ (g.inVolume x4 = true → g.inBounds (g.sub ctx.x3 x4) = true →
      ∃ a, g.angleAcc ctx.x3 x4 ctx.x5 = .ok a))
    (h3 : ∀ x4, 2 ≤ n → g.pointPos v = .ok x4 → g.add = true → ∃ b3', addParticle g b3 x4 c = .ok b3' ∧ G3 b3')
    (cur : Part P D) (hl : cur.cands.length + 1 ≤ POSI) :
    ∃ e b3', tryNew g ctx cur b3 = .ok ({ cur with cands := cur.cands ++ e }, b3') ∧ e.length ≤ 1 ∧ G3 b3' := by
  have none : ∃ e b3', (.ok (cur, b3) : Py (Part P D × Frame P D I)) = .ok ({ cur with cands := cur.cands ++ e }, b3') ∧
      e.length ≤ 1 ∧ G3 b3' :=
    ⟨[], b3, by rw [List.append_nil], by simp, hG⟩
  unfold tryNew
  rw [h]
  simp only [bind, Except.bind]
  by_cases hn : n ≥ 2
  swap
  · rw [if_neg hn]; exact none
  rw [if_pos hn]
  obtain ⟨x4, hx, ha⟩ := h2 hn
  rw [hx]
  simp only
  by_cases hv : g.inVolume x4 = true ∧ g.inBounds (g.sub ctx.x3 x4) = true
  swap
  · rw [if_neg hv]; exact none
  rw [if_pos hv]
  obtain ⟨⟨angle, acc⟩, ha⟩ := ha hv.1 hv.2
  rw [ha]
  simp only
  by_cases hg : g.gate acc angle = true
  · rw [if_pos hg, register_total _ _ (by omega)]
    by_cases hadd : g.add = true
    · obtain ⟨b3', f1, f2⟩ := h3 x4 hn hx hadd
      simp only [if_pos hadd, f1]
      exact ⟨[_], b3', rfl, by simp, f2⟩
    · simp only [if_neg hadd]
      exact ⟨[_], b3, rfl, by simp, hG⟩
  · rw [if_neg hg]; exact none

theorem candOne_grow {g : Geo P J C I D} {b1 b2 b3 : Frame P D I} {G2 G3 : Frame P D I → Prop} {m h : Nat} {x0 : Option P} {x1 : P}
    (hA : AddCallsOK g b1 G2 G3 m h x0 x1) (hG2 : G2 b2) (hG3 : G3 b3) {r : Part P D} (hr : r ∈ b2.parts) (f : Found) (cur : Part P D)
    (hl : cur.cands.length + (m + 1) ≤ POSI) :
    ∃ e b3', candOne g x0 x1 (expected g x0 x1) f r cur b3 = .ok ({ cur with cands := cur.cands ++ e }, b3') ∧ e.length ≤ m + 1 ∧
      G3 b3' := by
  have hc := hA.calls b2 b3 hG2 hG3
  obtain ⟨w, w1, l, r', rfl, w2, w3, w4⟩ := hc.ahead r hr
  obtain ⟨n, v, c, a1, a2⟩ := hc.assess r hr
  have hx5 : g.ahead x0 x1 r.x = expectedAfter g x0 x1 r.x := rfl
  have hlook : ∃ e, (if (l ++ [r']).length > 1 then
      lookAhead g ⟨x0, x1, expected g x0 x1, r.x, expectedAfter g x0 x1 r.x, f⟩ b3 (l ++ [r']) cur else .ok cur)
      = .ok { cur with cands := cur.cands ++ e } ∧ e.length ≤ m := by
    by_cases h1 : (l ++ [r']).length > 1
    · rw [if_pos h1]
      obtain ⟨e, e1, e2⟩ := lookAhead_total (g := g) (ctx := ⟨x0, x1, expected g x0 x1, r.x, expectedAfter g x0 x1 r.x, f⟩)
        (b3 := b3) w2 (fun hs => hc.angle0 hs r hr) (fun q hq => hc.angle1 r hr q hq) l cur w4 (by omega)
      exact ⟨e, e1, by omega⟩
    · rw [if_neg h1]
      exact ⟨[], by rw [List.append_nil], by simp⟩
  obtain ⟨e, e1, e2⟩ := hlook
  obtain ⟨e', b3', f1, f2, f3⟩ := tryNew_grow (g := g) (ctx := ⟨x0, x1, expected g x0 x1, r.x, expectedAfter g x0 x1 r.x, f⟩)
    (b3 := b3) hG3 a1 a2 (fun x4 hn hx ha => hA.grow3 b2 b3 r hG2 hG3 hr n v c x4 a1 hn hx ha)
    { cur with cands := cur.cands ++ e } (by simp only [List.length_append]; omega)
  obtain ⟨e'', g1, g2, g3⟩ := tryPlain_total (g := g) (ctx := ⟨x0, x1, expected g x0 x1, r.x, expectedAfter g x0 x1 r.x, f⟩)
    (fun hs => hc.angle0 hs r hr) { cur with cands := cur.cands ++ e ++ e' }
  refine ⟨e ++ e' ++ e'', b3', ?_, ?_, f3⟩
  · unfold candOne
    simp only [hx5]
    rw [w1]
    simp only [bind, Except.bind]
    rw [e1]
    simp only
    rw [f1]
    simp only
    rw [g1]
    simp only [List.append_assoc]
  · by_cases hz : cur.cands ++ e ++ e' = []
    · simp only [List.append_eq_nil_iff] at hz
      obtain ⟨⟨-, rfl⟩, rfl⟩ := hz
      simp only [List.nil_append]
      omega
    · rw [g2 hz]
      simp only [List.append_nil, List.length_append]
      omega

theorem candLoop_grow {g : Geo P J C I D} {b1 b2 : Frame P D I} {G2 G3 : Frame P D I → Prop} {m h : Nat} {x0 : Option P} {x1 : P}
    (hA : AddCallsOK g b1 G2 G3 m h x0 x1) (hG2 : G2 b2) {r : Found} (hr : r.ftnr = TR_UNUSED) :
    ∀ (l : List Found) (cur : Part P D) (b3 : Frame P D I), G3 b3 → (∀ f ∈ l, -1 ≤ f.ftnr) →
      cur.cands.length + l.length * (m + 1) ≤ POSI →
      ∃ e b3', candLoop g x0 x1 (expected g x0 x1) b2 (l ++ [r]) cur b3 = .ok ({ cur with cands := cur.cands ++ e }, b3') ∧ G3 b3'
  | [], cur, b3, hG3, _, _ => by
    refine ⟨[], b3, ?_, hG3⟩
    rw [List.nil_append, candLoop, if_pos (Or.inl hr), List.append_nil]
  | f :: l, cur, b3, hG3, hf, hl => by
    rw [List.length_cons, Nat.succ_mul] at hl
    rw [List.cons_append, candLoop]
    by_cases hend : f.ftnr = TR_UNUSED ∨ (b2.parts.length : Int) ≤ f.ftnr
    · rw [if_pos hend]
      exact ⟨[], b3, by rw [List.append_nil], hG3⟩
    rw [if_neg hend]
    have hfn := hf f (by simp)
    have hpos : 0 ≤ f.ftnr := by
      have : f.ftnr ≠ -1 := fun e => hend (Or.inl e)
      omega
    obtain ⟨q, hq, hget⟩ := pyGetI_range hpos (show f.ftnr < b2.parts.length by omega)
    rw [hget]
    simp only [bind, Except.bind]
    obtain ⟨e, b3', e1, hel, hG3'⟩ := candOne_grow hA hG2 hG3 hq f cur (by omega)
    rw [e1]
    simp only
    obtain ⟨e', b3'', f1, f2⟩ := candLoop_grow hA hG2 hr l { cur with cands := cur.cands ++ e } b3' hG3' (fun f hf' => hf f (by simp [hf']))
      (by simp only [List.length_append]; omega)
    rw [f1]
    exact ⟨e ++ e', b3'', by simp only [List.append_assoc], f2⟩

theorem tryAdd_grow {g : Geo P J C I D} {b1 b2 : Frame P D I} {G2 G3 : Frame P D I → Prop} {m h : Nat} {x0 : Option P} {x1 : P}
    (hA : AddCallsOK g b1 G2 G3 m h x0 x1) (hG2 : G2 b2) (cur : Part P D) :
    ∃ e b2', tryAdd g x0 x1 (expected g x0 x1) cur b2 = .ok ({ cur with cands := cur.cands ++ e }, b2') ∧ G2 b2' := by
  have none : ∃ e b2', (.ok (cur, b2) : Py (Part P D × Frame P D I)) = .ok ({ cur with cands := cur.cands ++ e }, b2') ∧ G2 b2' :=
    ⟨[], b2, by rw [List.append_nil], hG2⟩
  unfold tryAdd
  rcases x0 with _ | x0
  · exact none
  simp only
  by_cases hadd : g.add = true ∧ cur.cands = []
  swap
  · rw [if_neg hadd]; exact none
  rw [if_pos hadd]
  obtain ⟨n, v, c, h1, h2⟩ := hA.grow2 rfl hadd.1 b2 hG2
  rw [h1]
  simp only [bind, Except.bind]
  by_cases hn : n ≥ 2
  swap
  · rw [if_neg hn]; exact none
  rw [if_pos hn]
  obtain ⟨x3, hx, ha⟩ := h2 hn
  rw [hx]
  simp only
  by_cases hv : g.inVolume x3 = true ∧ g.inBounds (g.sub (expected g (some x0) x1) x3) = true
  swap
  · rw [if_neg hv]; exact none
  rw [if_pos hv]
  obtain ⟨⟨⟨angle, acc⟩, ha⟩, b2', hb1, hb2⟩ := ha hv.1 hv.2
  rw [ha]
  simp only
  by_cases hg : g.gate acc angle = true
  · rw [if_pos hg, register_total _ _ (by rw [hadd.2]; simp [POSI])]
    simp only [hb1]
    exact ⟨[_], b2', rfl, hb2⟩
  · rw [if_neg hg]; exact none

theorem searchOne_grow {g : Geo P J C I D} {b0 b1 b2 b3 : Frame P D I} {G2 G3 : Frame P D I → Prop} {m h : Nat} (hm : m * (m + 1) ≤ POSI)
    {p : Part P D} {x0 : Option P} (hp : b1.parts[h]? = some p) (hx : prevPos b0 p = .ok x0)
    (hA : AddCallsOK g b1 G2 G3 m h x0 p.x) (hG2 : G2 b2) (hG3 : G3 b3) :
    ∃ e b2' b3', searchOne g b0 b1 h b2 b3 = .ok ({ p with cands := e }, b2', b3') ∧ G2 b2' ∧ G3 b3' := by
  obtain ⟨w, w1, l, r, rfl, w2, w3, w4⟩ := (hA.calls b2 b3 hG2 hG3).search
  unfold searchOne
  rw [pyGet_some hp]
  simp only [bind, Except.bind]
  rw [hx]
  have hcc : g.centre x0 p.x = expected g x0 p.x := rfl
  simp only [hcc]
  rw [w1]
  simp only
  by_cases h1 : (l ++ [r]).length = 1
  · rw [if_pos h1]
    exact ⟨[], b2, b3, rfl, hG2, hG3⟩
  rw [if_neg h1]
  obtain ⟨e, b3', e1, e2⟩ := candLoop_grow hA hG2 w2 l { p with cands := [] } b3 hG3 w4 (by
    have : l.length * (m + 1) ≤ m * (m + 1) := Nat.mul_le_mul_right _ w3
    simp only [List.length_nil]
    omega)
  rw [e1]
  simp only
  obtain ⟨e', b2', f1, f2⟩ := tryAdd_grow hA hG2 { p with cands := [] ++ e }
  rw [f1]
  exact ⟨[] ++ e ++ e', b2', b3', rfl, f2, e2⟩

theorem AddCallsOK.same {g : Geo P J C I D} {b1 b1' : Frame P D I} {G2 G3 : Frame P D I → Prop} {m h : Nat} {x0 : Option P} {x1 : P}
    (hc : AddCallsOK g b1 G2 G3 m h x0 x1) (hs : b1'.img = b1.img) : AddCallsOK g b1' G2 G3 m h x0 x1 :=
  ⟨fun b2 b3 h2 h3 => (hc.calls b2 b3 h2 h3).same hs, hc.grow3, hc.grow2⟩

theorem searchLoop_grow {g : Geo P J C I D} {b0 b1 : Frame P D I} {G2 G3 : Frame P D I → Prop} {m : Nat} (hm : m * (m + 1) ≤ POSI)
    (hc : ∀ h p, b1.parts[h]? = some p → ∃ x0, prevPos b0 p = .ok x0 ∧ AddCallsOK g b1 G2 G3 m h x0 p.x) :
    ∀ (hs : List Nat) (b b2 b3 : Frame P D I), (∀ h ∈ hs, h < b1.parts.length) → SameButCands b1 b → G2 b2 → G3 b3 →
      ∃ b' b2' b3', searchLoop g b0 hs b b2 b3 = .ok (b', b2', b3') ∧ b'.img = b1.img ∧ G2 b2' ∧ G3 b3'
  | [], b, b2, b3, _, hS, h2, h3 => ⟨b, b2, b3, rfl, hS.1, h2, h3⟩
  | h :: hs, b, b2, b3, hh, hS, h2, h3 => by
    obtain ⟨s1, s2, s3⟩ := hS
    have hlt : h < b.parts.length := by rw [s2]; exact hh h (by simp)
    obtain ⟨q, q1, q2, q3, q4⟩ := s3 h _ (List.getElem?_eq_getElem hlt)
    obtain ⟨x0, x1, hcalls⟩ := hc h q q1
    have hprev : prevPos b0 b.parts[h] = .ok x0 := by
      rw [← x1]
      unfold prevPos
      rw [q3]
    obtain ⟨e, b2', b3', he, h2', h3'⟩ := searchOne_grow (b0 := b0) (b1 := b) hm (List.getElem?_eq_getElem hlt) hprev
      (by rw [q2]; exact hcalls.same s1) h2 h3
    simp only [searchLoop, he, bind, Except.bind]
    refine searchLoop_grow hm hc hs _ b2' b3' (fun x hx => hh x (by simp [hx])) ⟨s1, by simp [s2], ?_⟩ h2' h3'
    intro k p hk
    simp only [List.getElem?_set] at hk
    split_ifs at hk with e1
    · cases hk
      subst e1
      exact ⟨q, q1, q2, q3, q4⟩
    · exact s3 k p hk

/-- A forward step, with or without adding, returns. -/
theorem stepFrames_grow {g : Geo P J C I D} (hg : SearchSane g) {b0 b1 b2 b3 : Frame P D I} {G2 G3 : Frame P D I → Prop} {m : Nat}
    (hm : m * (m + 1) ≤ POSI) (hp2 : ∀ b, G2 b → ∀ q ∈ b.parts, q.prev = PREV_NONE) (h2 : G2 b2) (h3 : G3 b3)
    (hc : ∀ h p, b1.parts[h]? = some p → ∃ x0, prevPos b0 p = .ok x0 ∧ AddCallsOK g b1 G2 G3 m h x0 p.x) :
    ∃ b1' b2a b2' b3' k, stepFrames g b0 b1 b2 b3 = .ok (b1', b2', b3', k) ∧ b1'.img = b1.img ∧ G2 b2a ∧ b2'.img = b2a.img ∧
      b2'.parts.length = b2a.parts.length ∧ G3 b3' := by
  obtain ⟨b', b2a, b3', hb, hi, g2, g3⟩ := searchLoop_grow hm hc (List.range b1.parts.length) b1 b2 b3 (fun h hh => List.mem_range.1 hh)
    ⟨rfl, rfl, fun h p hp => ⟨p, hp, rfl, rfl, rfl⟩⟩ h2 h3
  unfold stepFrames
  rw [hb]
  simp only [bind, Except.bind]
  rw [List.range_eq_range'] at hb
  obtain ⟨-, -, -, e1, e2⟩ := searchLoop_spec hg b1.parts.length 0 b1 b2 b3 b' b2a b3' (by omega) hb
  obtain ⟨c', n', t, hl, -, hlen, -⟩ := linkPhase_spec (c := b'.parts) (n := b2a.parts) (hp2 b2a g2) (by
    intro p hp x hx
    obtain ⟨i, hi⟩ := List.getElem?_of_mem hp
    have hlt := (List.getElem?_eq_some_iff.1 hi).1
    obtain ⟨cs, f1, -, f2⟩ := (e2 i _ (List.getElem?_eq_getElem (by omega))).2 (Nat.zero_le _)
    rw [hi] at f1
    cases f1
    exact f2 x hx)
  rw [hl]
  exact ⟨_, b2a, _, _, _, rfl, hi, g2, rfl, hlen, g3⟩

end
end Verif.Track
